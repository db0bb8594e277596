import Verif.Spec.Order
import Verif.Spec.Pep440
/-!
# The order of PEP 440 proper

`Spec/Order.lean` has a place of its own for every phase that the library knows. In PEP 440 the phases `c`, `pre` and
`preview` are other spellings of `rc`, `rev` is another spelling of `post`, and the labels of local versions are compared
without regard to case. This is the order with these identifications.
-/

namespace Verif
namespace Pep440

/-- `a` before `b` before `rc`, for which `c`, `pre` and `preview` are other spellings. -/
def prePlace (phase : PyStr) : Nat := if phase = "alpha".toList then 1 else if phase = "beta".toList then 2 else 3

/-- Within a release: `.devN` alone comes first, then the pre-releases, then everything without a pre tag. -/
def preRank (v : Version) : Rank :=
  match v.pre, v.post, v.dev with
  | some t, _, _ => (prePlace t.phase, t.value)
  | none, none, some _ => (0, 0)
  | none, _, _ => (4, 0)

/-- Then: without post tag first, then the post tags by their numbers. -/
def postRank (v : Version) : Rank :=
  match v.post with
  | none => (0, 0)
  | some t => (1, t.value)

/-- ASCII lower case. -/
def lower (c : Char) : Char := if 'A' ≤ c ∧ c ≤ 'Z' then Char.ofNat (c.toNat + 32) else c

def lowerPart : LocalPart → LocalPart
  | .int n => .int n
  | .str s => .str (s.map lower)

def lowerLocal (l : Local) : Local := ⟨l.parts.map lowerPart⟩

/-- The first of epoch, release, pre, post, dev, local that differs decides. -/
def Before (a b : Version) : Prop :=
  a.epoch.value < b.epoch.value ∨ a.epoch.value = b.epoch.value ∧
  (a.release.Below b.release ∨ (∀ i, a.release.part i = b.release.part i) ∧
  ((preRank a).Below (preRank b) ∨ preRank a = preRank b ∧
  ((postRank a).Below (postRank b) ∨ postRank a = postRank b ∧
  (a.devRank.Below b.devRank ∨ a.devRank = b.devRank ∧
  localBefore (a.local_.map lowerLocal) (b.local_.map lowerLocal)))))

/-- The tags of the versions spell the same phase of PEP 440 in different ways. -/
def MixedSpelling (a b : Version) : Prop :=
  (∃ s t, a.pre = some s ∧ b.pre = some t ∧ s.phase ≠ t.phase ∧ prePlace s.phase = prePlace t.phase) ∨
  ∃ s t, a.post = some s ∧ b.post = some t ∧ s.phase ≠ t.phase

end Pep440
end Verif
