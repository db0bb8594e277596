import Verif.Spec.Basic
/-!
# The order of versions, field by field

`Version.Before` compares two versions field by field: epoch, release read with endless zeros, then three ranks for the
suffixes, then the local segments. It follows PEP 440, but every phase that the library knows has a place of its own;
`Spec/Pep440Order.lean` has the order of PEP 440 proper.
-/

namespace Verif

/-- A place in a table, and a number that decides between equal places. -/
abbrev Rank := Nat × Int

def Rank.Below (a b : Rank) : Prop := a.1 < b.1 ∨ a.1 = b.1 ∧ a.2 < b.2

/-- Place of a phase in a table. -/
def place (table : List String) (phase : PyStr) : Nat := table.findIdx (fun s => s.toList = phase)

/-- Within a release: `.devN` alone comes first, then the pre-releases, then everything without a pre tag. -/
def Version.preRank (v : Version) : Rank :=
  match v.pre, v.post, v.dev with
  | some t, _, _ => (1 + place ["alpha", "beta", "candidate", "preview", "rc"] t.phase, t.value)
  | none, none, some _ => (0, 0)
  | none, _, _ => (6, 0)

/-- Then: without post tag first, then the post tags. -/
def Version.postRank (v : Version) : Rank :=
  match v.post with
  | none => (0, 0)
  | some t => (1 + place ["post", "rev"] t.phase, t.value)

/-- Then: the dev tags first, then without dev tag. -/
def Version.devRank (v : Version) : Rank :=
  match v.dev with
  | some t => (0, t.value)
  | none => (1, 0)

/-- One local part is below another: numbers by value, strings below all numbers, strings by code points. -/
def LocalPart.Before : LocalPart → LocalPart → Prop
  | .int m, .int n => m < n
  | .str _, .int _ => True
  | .int _, .str _ => False
  | .str s, .str t => s.map Char.toNat < t.map Char.toNat

/-- No local segment comes first; local segments are ordered like words in a dictionary. -/
def localBefore : Option Local → Option Local → Prop
  | none, some _ => True
  | some l, some m => List.Lex LocalPart.Before l.parts m.parts
  | _, none => False

/-- The first of epoch, release, pre, post, dev, local that differs decides. -/
def Version.Before (a b : Version) : Prop :=
  a.epoch.value < b.epoch.value ∨ a.epoch.value = b.epoch.value ∧
  (a.release.Below b.release ∨ (∀ i, a.release.part i = b.release.part i) ∧
  (a.preRank.Below b.preRank ∨ a.preRank = b.preRank ∧
  (a.postRank.Below b.postRank ∨ a.postRank = b.postRank ∧
  (a.devRank.Below b.devRank ∨ a.devRank = b.devRank ∧
  localBefore a.local_ b.local_))))

end Verif
