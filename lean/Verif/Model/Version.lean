import Verif.Model.Segments
/-!
# Versions: /repo/versions/version.py
-/

namespace Verif

/-- /repo/versions/version.py 39-59. `compare_key` is computed from the other fields, see `compareKey`. -/
structure Version where
  epoch : Epoch := {}
  release : Release := Release.default
  pre : Option Tag := none
  post : Option Tag := none
  dev : Option Tag := none
  local_ : Option Local := none
  deriving DecidableEq, Repr

namespace Version

/-- `CompareKey`, /repo/versions/version.py 29-36. -/
abbrev CompareKey := Epoch × Release × Ext Tag × Ext Tag × Ext Tag × Ext Local

/-- /repo/versions/version.py 91-99. -/
def comparePre (pre post dev : Option Tag) : Ext Tag :=
  match pre with
  | none => if post.isNone && dev.isSome then .negInf else .posInf
  | some pre => .fin pre

/-- /repo/versions/version.py 101. -/
def comparePost : Option Tag → Ext Tag
  | none => .negInf
  | some post => .fin post

/-- /repo/versions/version.py 102. -/
def compareDev : Option Tag → Ext Tag
  | none => .posInf
  | some dev => .fin dev

/-- /repo/versions/version.py 106-108. -/
def compareLocal : Option Local → Ext Local
  | none => .negInf
  | some l => .fin l

/-- /repo/versions/version.py 63-81. -/
def compareKey (v : Version) : CompareKey :=
  (v.epoch, v.release, comparePre v.pre v.post v.dev, comparePost v.post, compareDev v.dev, compareLocal v.local_)

end Version

/-- attrs `eq`/`order` on the single field `compare_key`, /repo/versions/version.py 39, 61. -/
instance : PyCmp Version := attrsCmp (fun v => [v.compareKey])

namespace Version

/-- /repo/versions/version.py 222-225. -/
def precision (v : Version) : Nat := v.release.precision
/-- /repo/versions/version.py 227-230. -/
def lastIndex (v : Version) : Int := v.release.lastIndex
/-- /repo/versions/version.py 232-235. -/
def major (v : Version) : Except PyErr Int := v.release.major
/-- /repo/versions/version.py 237-240. -/
def minor (v : Version) : Except PyErr Int := v.release.minor
/-- /repo/versions/version.py 242-253. -/
def micro (v : Version) : Except PyErr Int := v.release.micro
/-- /repo/versions/version.py 260-271. -/
def getAt (v : Version) (index : Int) (default : Int := 0) : Except PyErr Int := v.release.getAt index default
/-- /repo/versions/version.py 273-285. -/
def getAtUnchecked (v : Version) (index : Int) : Except PyErr Int := v.release.getAtUnchecked index
/-- /repo/versions/version.py 287-294. -/
def isSemantic (v : Version) : Bool := v.release.isSemantic
/-- /repo/versions/version.py 513-519; `has_minor` (479-485) is index 1, `has_micro` (487-493) index 2. -/
def hasAt (v : Version) (index : Int) : Bool := v.release.hasAt index

/-- /repo/versions/version.py 305-306. -/
def setEpoch (v : Version) (epoch : Epoch) : Version := { v with epoch := epoch }
/-- /repo/versions/version.py 308-309. -/
def setEpochValue (v : Version) (value : Int) : Version := v.setEpoch (v.epoch.setValue value)
/-- /repo/versions/version.py 393-394. -/
def nextEpoch (v : Version) : Version := v.setEpoch v.epoch.nextValue
/-- /repo/versions/version.py 311-312. -/
def setRelease (v : Version) (release : Release) : Version := { v with release := release }
/-- /repo/versions/version.py 314-315. -/
def setReleaseParts (v : Version) (parts : List Int) : Except PyErr Version := do
  .ok (v.setRelease (← Release.create parts))
/-- /repo/versions/version.py 317-318. -/
def slice (v : Version) (index : Int) : Except PyErr Version := do
  .ok (v.setRelease (← v.release.slice index))
/-- /repo/versions/version.py 296-303. -/
def toSemantic (v : Version) : Except PyErr Version := do
  .ok { v with release := ← v.release.toSemantic }
/-- /repo/versions/version.py 366-376; `set_major/minor/micro/patch` (320-364) are indices 0, 1, 2, 2. -/
def setAt (v : Version) (index value : Int) : Except PyErr Version := do
  .ok (v.setRelease (← v.release.setAt index value))
/-- /repo/versions/version.py 378-391. -/
def setAtUnchecked (v : Version) (index value : Int) : Except PyErr Version := do
  .ok (v.setRelease (← v.release.setAtUnchecked index value))
/-- /repo/versions/version.py 521-531. -/
def padTo (v : Version) (length : Int) (padding : Int := 0) : Except PyErr Version := do
  .ok (v.setRelease (← v.release.padTo length padding))
/-- /repo/versions/version.py 533-543. -/
def padToIndex (v : Version) (index : Int) (padding : Int := 0) : Except PyErr Version := do
  .ok (v.setRelease (← v.release.padToIndex index padding))
/-- /repo/versions/version.py 545-554. -/
def padToNext (v : Version) (padding : Int := 0) : Except PyErr Version := do
  .ok (v.setRelease (← v.release.padToNext padding))

/-- /repo/versions/version.py 556-562. -/
def isPreRelease (v : Version) : Bool := v.pre.isSome
/-- /repo/versions/version.py 564-570. -/
def isPostRelease (v : Version) : Bool := v.post.isSome
/-- /repo/versions/version.py 572-578. -/
def isDevRelease (v : Version) : Bool := v.dev.isSome
/-- /repo/versions/version.py 580-586. -/
def isLocal (v : Version) : Bool := v.local_.isSome
/-- /repo/versions/version.py 588-594. -/
def isUnstable (v : Version) : Bool := v.isPreRelease || v.isDevRelease
/-- /repo/versions/version.py 596-602. -/
def isStable (v : Version) : Bool := !v.isUnstable

/-- /repo/versions/version.py 675-676, 711-720, 764-770. -/
def setPre (v : Version) (pre : Option Tag) : Version := { v with pre := pre }
/-- /repo/versions/version.py 678-679, 722-731, 772-778. -/
def setPost (v : Version) (post : Option Tag) : Version := { v with post := post }
/-- /repo/versions/version.py 681-682, 733-742, 780-786. -/
def setDev (v : Version) (dev : Option Tag) : Version := { v with dev := dev }
/-- /repo/versions/version.py 684-687, 744-745. -/
def setTags (v : Version) (pre post dev : Option Tag) : Version := { v with pre := pre, post := post, dev := dev }
/-- /repo/versions/version.py 689-690, 747-756, 791-797. -/
def setLocal (v : Version) (l : Option Local) : Version := { v with local_ := l }
/-- /repo/versions/version.py 692-697: both branches call the constructor of `Local` on `parts`. -/
def setLocalParts (v : Version) (parts : List LocalPart) : Except PyErr Version := do
  .ok (v.setLocal (some (← Local.create parts)))
/-- /repo/versions/version.py 699-700, 758-759. -/
def setDevAndLocal (v : Version) (dev : Option Tag) (l : Option Local) : Version := { v with dev := dev, local_ := l }
/-- /repo/versions/version.py 702-709, 761-762. -/
def setTagsAndLocal (v : Version) (pre post dev : Option Tag) (l : Option Local) : Version :=
  { v with pre := pre, post := post, dev := dev, local_ := l }
/-- /repo/versions/version.py 788-789. -/
def withoutTags (v : Version) : Version := v.setTags none none none
/-- /repo/versions/version.py 791-797. -/
def withoutLocal (v : Version) : Version := v.setLocal none
/-- /repo/versions/version.py 772-778. -/
def withoutPost (v : Version) : Version := v.setPost none
/-- /repo/versions/version.py 764-770. -/
def withoutPre (v : Version) : Version := v.setPre none
/-- /repo/versions/version.py 780-786. -/
def withoutDev (v : Version) : Version := v.setDev none
/-- /repo/versions/version.py 799-800. -/
def withoutDevAndLocal (v : Version) : Version := v.setDevAndLocal none none
/-- /repo/versions/version.py 802-803. -/
def withoutTagsAndLocal (v : Version) : Version := v.setTagsAndLocal none none none none

/-- /repo/versions/version.py 805-820. -/
def weaken (v other : Version) : Version :=
  let other := if !v.isLocal && other.isLocal then other.withoutLocal else other
  if !v.isPostRelease && other.isPostRelease then other.withoutPost else other

/-- /repo/versions/version.py 830-836. -/
def toStableUnchecked (v : Version) : Version := v.withoutTagsAndLocal
/-- /repo/versions/version.py 822-828. -/
def toStable (v : Version) : Version := if v.isStable then v else v.toStableUnchecked

/-- /repo/versions/version.py 454-469. -/
def nextAt (v : Version) (index : Int) : Except PyErr Version := do
  let release ← if v.isStable then v.release.nextAt index else .ok v.release
  .ok (v.withoutTagsAndLocal.setRelease release)
/-- /repo/versions/version.py 396-408. -/
def nextMajor (v : Version) : Except PyErr Version := do
  let release ← if v.isStable then v.release.nextMajor else .ok v.release
  .ok (v.withoutTagsAndLocal.setRelease release)
/-- /repo/versions/version.py 410-422. -/
def nextMinor (v : Version) : Except PyErr Version := do
  let release ← if v.isStable then v.release.nextMinor else .ok v.release
  .ok (v.withoutTagsAndLocal.setRelease release)
/-- /repo/versions/version.py 424-436. -/
def nextMicro (v : Version) : Except PyErr Version := do
  let release ← if v.isStable then v.release.nextMicro else .ok v.release
  .ok (v.withoutTagsAndLocal.setRelease release)
/-- /repo/versions/version.py 438-452. -/
def nextPatch (v : Version) : Except PyErr Version := do
  let release ← if v.isStable then v.release.nextPatch else .ok v.release
  .ok (v.withoutTagsAndLocal.setRelease release)

/-- /repo/versions/version.py 604-619. -/
def nextPre (v : Version) : Except PyErr Version := do
  let pre ← match v.pre with
    | none => Tag.default .pre
    | some pre => pre.next .pre
  .ok (v.withoutTagsAndLocal.setPre (some pre))
/-- /repo/versions/version.py 621-639. -/
def nextPrePhase (v : Version) : Except PyErr (Option Version) := do
  let pre ← match v.pre with
    | none => do .ok (some (← Tag.default .pre))
    | some pre => pre.nextPhase .pre
  match pre with
  | none => .ok none
  | some pre => .ok (some (v.withoutTagsAndLocal.setPre (some pre)))
/-- /repo/versions/version.py 641-656. -/
def nextPost (v : Version) : Except PyErr Version := do
  let post ← match v.post with
    | none => Tag.default .post
    | some post => post.next .post
  .ok (v.setPost (some post)).withoutDevAndLocal
/-- /repo/versions/version.py 658-673. -/
def nextDev (v : Version) : Except PyErr Version := do
  let dev ← match v.dev with
    | none => Tag.default .dev
    | some dev => dev.next .dev
  .ok (v.setDev (some dev)).withoutLocal

/-- /repo/versions/version.py 838-869. `if not self.major` etc. test `int` values. -/
def nextBreaking (v : Version) : Except PyErr Version := do
  if (← v.major) = 0 then
    if (← v.minor) ≠ 0 then v.nextMinor
    else if v.hasAt 2 then v.nextMicro
    else if v.hasAt 1 then v.nextMinor
    else v.nextMajor
  else v.toStable.nextMajor

/-- Normalization of an optional tag, /repo/versions/version.py 877-890. -/
def normalizeTag (cls : TagClass) : Option Tag → Except PyErr (Option Tag)
  | none => .ok none
  | some t => do .ok (some (← t.normalize cls))

/-- /repo/versions/version.py 871-892. -/
def normalize (v : Version) : Except PyErr Version := do
  let pre ← normalizeTag .pre v.pre
  let post ← normalizeTag .post v.post
  let dev ← normalizeTag .dev v.dev
  .ok (v.setTags pre post dev)

/-- /repo/versions/version.py 894-925. -/
def create (epoch : Option Epoch) (release : Option Release) (pre post dev : Option Tag) (l : Option Local) :
    Version :=
  ⟨epoch.getD {}, release.getD Release.default, pre, post, dev, l⟩

/-- /repo/versions/version.py 927-953. -/
def fromParts (parts : List Int) (epoch : Option Epoch) (pre post dev : Option Tag) (l : Option Local) :
    Except PyErr Version := do
  let release ← Release.create parts
  .ok (create epoch (some release) pre post dev l)

end Version

end Verif
