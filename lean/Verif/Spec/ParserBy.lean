import Verif.Spec.SpecifierText
/-!
# What specifier strings mean to a specifier parser over any version parser
-/

namespace Verif

/-- The string, without whitespace, is the operator, if versions are read with `P`: a sign and a version string, or a version
string with a wildcard in place of the 0 at the end. The wildcards `x` and `*` are read as 0, the wildcard `X` is left to `P`. -/
inductive SingleBy (P : PyStr → Except PyErr Version) : PyStr → Operator → Prop
  | compare {o : PyStr} {t : OpType} {p : Spelling} {v : Version} {op : Operator} : (o, t) ∈ compareWords → p.WF → p.local_ = none →
      P p.text = .ok v → Operator.create t v = .ok op → SingleBy P (o ++ p.text) op
  | equal {o : PyStr} {t : OpType} {p : Spelling} {v : Version} {op : Operator} : (o, t) ∈ equalWords → p.WF →
      P p.text = .ok v → Operator.create t v = .ok op → SingleBy P (o ++ p.text) op
  | wildcard {o : PyStr} {t : OpType} {p : Spelling} {v : Version} {op : Operator} {c : Char} : (o, t) ∈ wildcardWords → p.WF → p.EndsInZero →
      (c = 'x' ∨ c = '*') → P p.text = .ok v → Operator.create t v = .ok op → SingleBy P (o ++ p.wild c) op
  | upper {o : PyStr} {t : OpType} {p : Spelling} {v : Version} {op : Operator} : (o, t) ∈ wildcardWords → p.WF → p.EndsInZero →
      P (p.wild 'X') = .ok v → Operator.create t v = .ok op → SingleBy P (o ++ p.wild 'X') op

/-- Strings separated by commas, one for each operator. -/
def AllBy (P : PyStr → Except PyErr Version) (s : PyStr) (ops : List Operator) : Prop :=
  ∃ a l, s = a ++ (l.map (',' :: ·)).flatten ∧ List.Forall₂ (SingleBy P) (a :: l) ops

/-- Strings separated by `|` or `||`, one for each list of operators. -/
def AnyBy (P : PyStr → Except PyErr Version) (s : PyStr) (groups : List (List Operator)) : Prop :=
  ∃ a l, s = pipes a l ∧ List.Forall₂ (AllBy P) (a :: l.map (·.2)) groups

/-- Version strings, possibly with the wildcard `X` at the end: what specifier parsers give to version parsers. -/
def GivenText (w : PyStr) : Prop := ∃ p : Spelling, p.WF ∧ (w = p.text ∨ (p.EndsInZero ∧ w = p.wild 'X'))

mutual
/-- The specifier with `f` applied to the versions. -/
def Specifier.mapVersions (f : Version → Version) : Specifier → Specifier
  | .never => .never
  | .always => .always
  | .one o => .one ⟨o.type, f o.version⟩
  | .any l => .any (Specifier.mapVersionsList f l)
  | .all l => .all (Specifier.mapVersionsList f l)
def Specifier.mapVersionsList (f : Version → Version) : List Specifier → List Specifier
  | [] => []
  | s :: l => Specifier.mapVersions f s :: Specifier.mapVersionsList f l
end

end Verif
