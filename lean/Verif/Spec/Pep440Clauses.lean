import Verif.Spec.Order
import Verif.Spec.Operators
/-!
# The version specifier clauses of PEP 440

Written from PEP 440, section "Version specifiers", on top of the order of `Spec/Order.lean`. Where the PEP speaks of
"pre-releases of the specified version" and "post-releases of the specified version", versions with the same epoch and
release are meant, as in `packaging`. The arbitrary equality `===` is left out.
-/

namespace Verif
namespace Pep440

/-- Neither comes before the other. -/
def Same (a b : Version) : Prop := ¬ a.Before b ∧ ¬ b.Before a

/-- The version without its local version label. -/
def Public (v : Version) : Version := { v with local_ := none }

/-- Pre-releases, and developmental releases of any kind. -/
def IsPre (v : Version) : Prop := v.pre ≠ none ∨ v.dev ≠ none

inductive Clause
  | compatible
  | matching
  | exclusion
  | prefixMatching
  | prefixExclusion
  | atMost
  | atLeast
  | below
  | above

/-- Version matching `== a`: the local label of the candidate is ignored if `a` has none. -/
def Matches (a v : Version) : Prop := if a.local_ = none then Same (Public v) a else Same v a

/-- `c a` allows the candidate `v`; for the prefix clauses, `a` is what comes before `.*`. -/
def Allows (c : Clause) (a v : Version) : Prop :=
  match c with
  | .matching => Matches a v
  | .exclusion => ¬ Matches a v
  | .prefixMatching => v.SamePrefix a.release.precision a
  | .prefixExclusion => ¬ v.SamePrefix a.release.precision a
  | .atMost => ¬ a.Before (Public v)
  | .atLeast => ¬ (Public v).Before a
  | .compatible => ¬ (Public v).Before a ∧ v.SamePrefix (a.release.precision - 1) a
  | .below => v.Before a ∧ ¬ (¬ IsPre a ∧ IsPre v ∧ v.SameNumbers a)
  | .above => a.Before v ∧ ¬ (a.post = none ∧ v.post ≠ none ∧ v.SameNumbers a) ∧ ¬ (v.local_ ≠ none ∧ v.SameNumbers a)

end Pep440
end Verif
