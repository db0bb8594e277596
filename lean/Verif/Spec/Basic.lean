import Verif.Model.Version
/-!
# What the segments of a version mean, independently of how the code computes
-/

namespace Verif

/-- The release part at position `i`; missing parts read as 0. -/
def Release.part (r : Release) (i : Nat) : Int := r.parts.getD i 0

/-- No part is negative. (Everything parsed from a string is like this.) -/
def Release.NonNeg (r : Release) : Prop := ∀ x ∈ r.parts, 0 ≤ x

/-- Releases that the constructor accepts. -/
def Release.Valid (r : Release) : Prop := r.parts ≠ []

/-- The release `a` is below `b` when read with endless zeros: the first difference decides. -/
def Release.Below (a b : Release) : Prop := ∃ i, (∀ j < i, a.part j = b.part j) ∧ a.part i < b.part i

/-- The phases tags can have after construction (short names are expanded). -/
def TagClass.phases : TagClass → List String
  | .pre => ["alpha", "beta", "candidate", "rc", "preview"]
  | .post => ["post", "rev"]
  | .dev => ["dev"]

/-- Tags that the constructor of the class can produce. -/
def Tag.Valid (cls : TagClass) (t : Tag) : Prop := ∃ s ∈ cls.phases, t.phase = s.toList

instance (cls : TagClass) (t : Tag) : Decidable (t.Valid cls) :=
  inferInstanceAs (Decidable (∃ s ∈ cls.phases, t.phase = s.toList))

/-- Versions that can be built through the API. -/
structure Version.Valid (v : Version) : Prop where
  release : v.release.parts ≠ []
  pre : ∀ t, v.pre = some t → t.Valid .pre
  post : ∀ t, v.post = some t → t.Valid .post
  dev : ∀ t, v.dev = some t → t.Valid .dev
  local_ : ∀ l, v.local_ = some l → l.parts ≠ []

/-- A development release of a post-release (and of no pre-release), such as `1.0.post1.dev2`. -/
def Version.IsDevOfPost (v : Version) : Prop := v.pre = none ∧ v.post ≠ none ∧ v.dev ≠ none

/-- A final version: neither tags nor a local segment. -/
def Version.IsFinal (v : Version) : Prop := v.pre = none ∧ v.post = none ∧ v.dev = none ∧ v.local_ = none

/-- Python's operators on versions. -/
scoped notation:50 a:51 " <ₚ " b:51 => PyCmp.lt (α := Version) a b = true
scoped notation:50 a:51 " ≤ₚ " b:51 => PyCmp.le (α := Version) a b = true
scoped notation:50 a:51 " >ₚ " b:51 => PyCmp.gt (α := Version) a b = true
scoped notation:50 a:51 " ≥ₚ " b:51 => PyCmp.ge (α := Version) a b = true
scoped notation:50 a:51 " ==ₚ " b:51 => PyCmp.eq (α := Version) a b = true

end Verif
