import Verif.Model.Operators
import Verif.Spec.Sets
/-!
# What operators mean, independently of how the code computes
-/

namespace Verif
open scoped Verif

/-- Same epoch and the same first `n` parts (missing parts read as 0). -/
def Version.SamePrefix (n : Nat) (a b : Version) : Prop := a.epoch = b.epoch ∧ ∀ j < n, a.release.part j = b.release.part j

/-- Same epoch and the same release, up to trailing zeros. -/
def Version.SameNumbers (a b : Version) : Prop := a.epoch = b.epoch ∧ ∀ j, a.release.part j = b.release.part j

/-- Leading up to the final release: a pre-release (possibly with further tags), or a development release of the final
release itself. -/
def Version.LeadsToFinal (v : Version) : Prop := v.pre ≠ none ∨ (v.post = none ∧ v.dev ≠ none)

/-- The epoch of `a` and the release of `a` incremented at part `i`: parts before `i` kept, later ones zero. -/
def Version.NumbersBumped (i : Nat) (a v : Version) : Prop :=
  v.epoch = a.epoch ∧ ∀ j, v.release.part j = if j < i then a.release.part j else if j = i then a.release.part i + 1 else 0

/-- `i` is the position of the leftmost non-zero part among the first three, or of the last one given among them if
they are all zero. -/
def CaretIndex (r : Release) (i : Nat) : Prop :=
  i < 3 ∧ (∀ j < i, r.part j = 0) ∧ (r.part i ≠ 0 ∨ i + 1 = min 3 r.precision)

/-- Operators that the constructor accepts, on versions with non-negative parts. -/
structure Operator.Valid (o : Operator) : Prop where
  version : o.version.Valid
  nonNeg : o.version.release.NonNeg
  tildeEqual : o.type = .tildeEqual → 2 ≤ o.version.release.precision

/-- Operators that fail to translate: `^`, `~` and the wildcard operators on a development release of a post-release,
`^` only if the major part is zero. -/
def Operator.Broken (o : Operator) : Prop :=
  o.version.IsDevOfPost ∧ (o.type = .caret ∧ o.version.release.part 0 = 0 ∨ o.type = .tilde ∨
    o.type = .wildcardDoubleEqual ∨ o.type = .wildcardEqual ∨ o.type = .wildcardNotEqual)

end Verif
