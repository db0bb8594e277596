import Verif.Spec.Specification
import Verif.Spec.Specifiers
/-!
# The grammar of specifier strings and what they mean
-/

namespace Verif

/-- The string, without whitespace, is the operator: its sign and a spelling of its version, or, for wildcard operators,
a spelling of its version with a wildcard in place of the 0 at the end. Local segments only after `=`, `==`, `!=` or
without a sign; `~=` only with two release numbers or more. -/
inductive SingleOf : PyStr → Operator → Prop
  | compare {o : PyStr} {t : OpType} {p : Spelling} {v : Version} : (o, t) ∈ compareWords → p.WF → p.Greedy → p.local_ = none → p.Of v →
      (t = .tildeEqual → p.release ≠ []) → SingleOf (o ++ p.text) ⟨t, v⟩
  | equal {o : PyStr} {t : OpType} {p : Spelling} {v : Version} : (o, t) ∈ equalWords → p.WF → p.Greedy → p.Of v → SingleOf (o ++ p.text) ⟨t, v⟩
  | wildcard {o : PyStr} {t : OpType} {p : Spelling} {v : Version} {c : Char} : (o, t) ∈ wildcardWords → p.WF → p.Greedy → p.EndsInZero →
      (c = 'x' ∨ c = '*') → p.Of v → SingleOf (o ++ p.wild c) ⟨t, v⟩

/-- The string has the form of a single specifier, whatever the case of its letters and the number of parts after `~=`. -/
inductive SingleForm : PyStr → Prop
  | compare {o : PyStr} {t : OpType} {p : Spelling} : (o, t) ∈ compareWords → p.WF → p.local_ = none → SingleForm (o ++ p.text)
  | equal {o : PyStr} {t : OpType} {p : Spelling} : (o, t) ∈ equalWords → p.WF → SingleForm (o ++ p.text)
  | wildcard {o : PyStr} {t : OpType} {p : Spelling} {c : Char} : (o, t) ∈ wildcardWords → p.WF → p.EndsInZero → IsWildcard c → SingleForm (o ++ p.wild c)

/-- A wildcard specifier with the wildcard `X`. -/
def UpperWildcard (s : PyStr) : Prop :=
  ∃ (o : PyStr) (t : OpType) (p : Spelling), (o, t) ∈ wildcardWords ∧ p.WF ∧ p.EndsInZero ∧ s = o ++ p.wild 'X'

/-- The form of a single specifier, but a phase is not in lower case, or only one release number after `~=`. -/
inductive BadValue : PyStr → Prop
  | compare {o : PyStr} {t : OpType} {p : Spelling} : (o, t) ∈ compareWords → p.WF → p.Greedy → p.local_ = none →
      (¬ p.LowerCase ∨ (t = .tildeEqual ∧ p.release = [])) → BadValue (o ++ p.text)
  | equal {o : PyStr} {t : OpType} {p : Spelling} : (o, t) ∈ equalWords → p.WF → p.Greedy → ¬ p.LowerCase → BadValue (o ++ p.text)
  | wildcard {o : PyStr} {t : OpType} {p : Spelling} {c : Char} : (o, t) ∈ wildcardWords → p.WF → p.Greedy → p.EndsInZero →
      (c = 'x' ∨ c = '*') → ¬ p.LowerCase → BadValue (o ++ p.wild c)

/-- Strings separated by commas, one for each operator. -/
def AllOf (s : PyStr) (ops : List Operator) : Prop := ∃ a l, s = a ++ (l.map (',' :: ·)).flatten ∧ List.Forall₂ SingleOf (a :: l) ops

/-- Strings separated by `|` or `||`, one for each list of operators. -/
def AnyOf (s : PyStr) (groups : List (List Operator)) : Prop := ∃ a l, s = pipes a l ∧ List.Forall₂ AllOf (a :: l.map (·.2)) groups

/-- All of the operators. -/
def Specifier.ofAll : List Operator → Specifier
  | [o] => .one o
  | l => .all (l.map .one)

/-- Any of the lists of operators. -/
def Specifier.ofAny : List (List Operator) → Specifier
  | [g] => ofAll g
  | l => .any (l.map ofAll)

end Verif
