import Verif.Spec.Spelling
import Verif.Model.Operators
/-!
# Single specifiers in strings: an operator and a version, or a version with a wildcard
-/

namespace Verif

/-- The operators before a version, and what they mean. -/
def compareWords : List (PyStr × OpType) :=
  [("<=", .lessOrEqual), (">=", .greaterOrEqual), ("<", .less), (">", .greater), ("^", .caret), ("~=", .tildeEqual), ("~", .tilde)].map
    (fun e => (e.1.toList, e.2))

/-- The operators before a version that may have a local segment. -/
def equalWords : List (PyStr × OpType) :=
  [("==", .doubleEqual), ("=", .equal), ("!=", .notEqual), ("", .equal)].map (fun e => (e.1.toList, e.2))

/-- The operators before a version with a wildcard. -/
def wildcardWords : List (PyStr × OpType) :=
  [("==", .wildcardDoubleEqual), ("=", .wildcardEqual), ("!=", .wildcardNotEqual), ("", .wildcardEqual)].map (fun e => (e.1.toList, e.2))

def IsWildcard (c : Char) : Prop := c = 'x' ∨ c = 'X' ∨ c = '*'

namespace Spelling

/-- The tag ends in the number 0. -/
def TagZero (t : TagSpelling) : Prop := ∃ s, t.value = some (s, ['0'])

/-- The spelling ends in the number 0: the value of the last tag, or the last release number. -/
def EndsInZero (p : Spelling) : Prop :=
  p.local_ = none ∧
    match p.dev, p.post, p.pre with
    | some t, _, _ => TagZero t
    | none, some (.implicit d), _ => d = ['0']
    | none, some (.tag t), _ => TagZero t
    | none, none, some t => TagZero t
    | none, none, none => (p.major :: p.release).getLast (by simp) = ['0']

/-- The version string with a wildcard in place of the last number. -/
def wild (p : Spelling) (c : Char) : PyStr := p.text.dropLast ++ [c]

end Spelling

/-- The version with 0 in place of its last number: the value of the last tag, or the last release number. -/
def Version.zeroLast (v : Version) : Version :=
  match v.dev, v.post, v.pre with
  | some t, _, _ => { v with dev := some { t with value := 0 } }
  | none, some t, _ => { v with post := some { t with value := 0 } }
  | none, none, some t => { v with pre := some { t with value := 0 } }
  | none, none, none => { v with release := ⟨v.release.parts.dropLast ++ [0]⟩ }

/-- The version has no candidate tag (spelled "candidate" in long strings, which is not read back). -/
def NoCandidate (v : Version) : Prop := ∀ t, v.pre = some t → t.phase ≠ "candidate".toList

/-- Segments joined by single or double pipes. -/
def pipes : PyStr → List (Bool × PyStr) → PyStr
  | a, [] => a
  | a, (double, b) :: l => a ++ (if double then ['|', '|'] else ['|']) ++ pipes b l

end Verif
