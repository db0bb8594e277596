import Verif.Model.Py
/-!
# Segments of versions: /repo/versions/segments
-/

namespace Verif

/-! ## Epoch: /repo/versions/segments/epoch.py -/

/-- /repo/versions/segments/epoch.py 13-17. -/
structure Epoch where
  value : Int := 0
  deriving DecidableEq, Repr

/-- attrs `eq`/`order` on the single field `value`, /repo/versions/segments/epoch.py 13. -/
instance : PyCmp Epoch := attrsCmp (fun e => [e.value])

namespace Epoch

/-- `__bool__`, /repo/versions/segments/epoch.py 19-20. -/
def truthy (e : Epoch) : Bool := decide (e.value ≠ 0)

/-- /repo/versions/segments/epoch.py 54-63. -/
def setValue (_e : Epoch) (value : Int) : Epoch := ⟨value⟩

/-- /repo/versions/segments/epoch.py 65-71. -/
def nextValue (e : Epoch) : Epoch := e.setValue (increment e.value)

end Epoch

/-! ## Release: /repo/versions/segments/release.py -/

/-- /repo/versions/segments/release.py 28-35. `compare_parts` is computed from `parts`, see `compareParts`. -/
structure Release where
  parts : List Int
  deriving DecidableEq, Repr

namespace Release

/-- The constructor with its validator, /repo/versions/segments/release.py 37-40, 53-63. -/
def create (parts : List Int) : Except PyErr Release :=
  if parts.isEmpty then .error .valueError else .ok ⟨parts⟩

/-- The default `Release()`: /repo/versions/segments/constants.py 12. -/
def default : Release := ⟨[0, 0, 0]⟩

/-- /repo/versions/segments/release.py 108-111. -/
def precision (r : Release) : Nat := r.parts.length

/-- /repo/versions/segments/release.py 410-411. -/
def sliceParts (r : Release) (index : Int) : List Int := pySliceTo r.parts index

/-- /repo/versions/segments/release.py 42-51. -/
def compareParts (r : Release) : List Int :=
  let index := countLeadingZeros r.parts.reverse
  let index := if index = r.precision then index - 1 else index
  if index ≠ 0 then r.sliceParts (-(index : Int)) else r.parts

/-- /repo/versions/segments/release.py 113-117. -/
def lastIndex (r : Release) : Int := (r.precision : Int) - 1

/-- /repo/versions/segments/release.py 361-367. -/
def hasAt (r : Release) (index : Int) : Bool := decide ((r.precision : Int) > index)

/-- /repo/versions/segments/release.py 159-171. -/
def getAtUnchecked (r : Release) (index : Int) : Except PyErr Int := pyGet r.parts index

/-- /repo/versions/segments/release.py 147-157. -/
def getAt (r : Release) (index : Int) (default : Int := 0) : Except PyErr Int :=
  if r.hasAt index then r.getAtUnchecked index else .ok default

/-- /repo/versions/segments/release.py 119-122. -/
def major (r : Release) : Except PyErr Int := r.getAt 0
/-- /repo/versions/segments/release.py 124-127. -/
def minor (r : Release) : Except PyErr Int := r.getAt 1
/-- /repo/versions/segments/release.py 129-132; `patch` (134-140) is the same. -/
def micro (r : Release) : Except PyErr Int := r.getAt 2
/-- /repo/versions/segments/release.py 142-145. -/
def extra (r : Release) : List Int := r.parts.drop 3

/-- /repo/versions/segments/release.py 173-179. -/
def isSemantic (r : Release) : Bool := decide (r.precision = 3)

/-- /repo/versions/segments/release.py 407-408. -/
def slice (r : Release) (index : Int) : Except PyErr Release := create (r.sliceParts index)

/-- /repo/versions/segments/release.py 369-382. -/
def padTo (r : Release) (length : Int) (padding : Int := 0) : Except PyErr Release :=
  if (r.precision : Int) < length then create (fixToLength length.toNat padding r.parts) else .ok r

/-- /repo/versions/segments/release.py 384-394. -/
def padToIndex (r : Release) (index : Int) (padding : Int := 0) : Except PyErr Release :=
  r.padTo (increment index) padding

/-- /repo/versions/segments/release.py 396-405. -/
def padToNext (r : Release) (padding : Int := 0) : Except PyErr Release :=
  r.padTo (increment r.precision) padding

/-- /repo/versions/segments/release.py 250-266. -/
def setAtUnchecked (r : Release) (index value : Int) : Except PyErr Release := do
  let mutable ← pySet r.parts index value
  create mutable

/-- /repo/versions/segments/release.py 238-248. -/
def setAt (r : Release) (index value : Int) : Except PyErr Release := do
  let padded ← r.padToIndex index
  padded.setAtUnchecked index value

/-- /repo/versions/segments/release.py 302-317. -/
def nextAt (r : Release) (index : Int) (default : Int := 0) (padding : Int := 0) : Except PyErr Release := do
  let value ← r.getAt index default
  let updated ← r.setAt index (increment value)
  let sliced ← updated.slice (increment index)
  sliced.padTo updated.precision padding

/-- /repo/versions/segments/release.py 268-274. -/
def nextMajor (r : Release) : Except PyErr Release := r.nextAt 0
/-- /repo/versions/segments/release.py 276-282. -/
def nextMinor (r : Release) : Except PyErr Release := r.nextAt 1
/-- /repo/versions/segments/release.py 284-290. -/
def nextMicro (r : Release) : Except PyErr Release := r.nextAt 2
/-- /repo/versions/segments/release.py 292-300. -/
def nextPatch (r : Release) : Except PyErr Release := r.nextAt 2

/-- /repo/versions/segments/release.py 181-190. -/
def toSemantic (r : Release) : Except PyErr Release :=
  if r.hasAt 3 then do
    let next ← r.nextPatch
    next.slice 3
  else if r.isSemantic then .ok r else r.padTo 3

end Release

/-- attrs `eq`/`order` on the single field `compare_parts`, /repo/versions/segments/release.py 28, 35. -/
instance : PyCmp Release := attrsCmp (fun r => [r.compareParts])

/-! ## Tags: /repo/versions/segments/tags.py, /repo/versions/phases.py -/

/-- The subclasses of `Tag`: /repo/versions/segments/tags.py 181-205. -/
inductive TagClass
  | pre
  | post
  | dev
  deriving DecidableEq, Repr

/-- /repo/versions/segments/tags.py 40-51 (the class of a tag is known from where it is stored). -/
structure Tag where
  phase : PyStr
  value : Int := 0
  deriving DecidableEq, Repr

/-- attrs `eq`/`order` on `(phase, value)`, /repo/versions/segments/tags.py 40, 181-205. -/
instance : PyCmp Tag := attrsCmp (fun t => (t.phase, t.value))

/-- `dict.get`. -/
def dictGet {β : Type} (dict : List (PyStr × β)) (key : PyStr) : Option β :=
  (dict.find? (fun e => e.1 == key)).map (·.2)

namespace Phases
/-! /repo/versions/constants.py 65-91 and /repo/versions/phases.py 52-74. -/
def alpha : PyStr := "alpha".toList
def a : PyStr := "a".toList
def beta : PyStr := "beta".toList
def b : PyStr := "b".toList
def candidate : PyStr := "candidate".toList
def c : PyStr := "c".toList
def rc : PyStr := "rc".toList
def preview : PyStr := "preview".toList
def pre : PyStr := "pre".toList
def post : PyStr := "post".toList
def rev : PyStr := "rev".toList
def r : PyStr := "r".toList
def dev : PyStr := "dev".toList

/-- /repo/versions/phases.py 78-89. -/
def preSet : List PyStr := [alpha, a, beta, b, candidate, c, rc, rc, preview, pre]
/-- /repo/versions/phases.py 93-98. -/
def postSet : List PyStr := [post, post, rev, r]
/-- /repo/versions/phases.py 102-105. -/
def devSet : List PyStr := [dev, dev]

/-- /repo/versions/phases.py 111-120. -/
def toShort : List (PyStr × PyStr) :=
  [(alpha, a), (beta, b), (candidate, c), (rc, rc), (preview, pre), (post, post), (rev, r), (dev, dev)]

/-- /repo/versions/phases.py 122. (No two entries have the same short phase.) -/
def shortToPhase : List (PyStr × PyStr) := toShort.map (fun e => (e.2, e.1))

/-- /repo/versions/phases.py 124-129. -/
def toNext : List (PyStr × PyStr) := [(alpha, beta), (a, b), (beta, rc), (b, rc)]

/-- /repo/versions/phases.py 131-138. -/
def toNormal : List (PyStr × PyStr) :=
  [(candidate, rc), (c, rc), (preview, rc), (pre, rc), (rev, post), (r, post)]

end Phases

namespace TagClass

/-- `PHASE_SET`: /repo/versions/segments/tags.py 187, 196, 205. -/
def phaseSet : TagClass → List PyStr
  | .pre => Phases.preSet
  | .post => Phases.postSet
  | .dev => Phases.devSet

/-- `DEFAULT_PHASE`: /repo/versions/segments/tags.py 186, 195, 204; /repo/versions/phases.py 76, 91, 100. -/
def defaultPhase : TagClass → PyStr
  | .pre => Phases.alpha
  | .post => Phases.post
  | .dev => Phases.dev

end TagClass

namespace Tag

/-- /repo/versions/segments/tags.py 36-37. -/
def convertPhase (phase : PyStr) : PyStr := (dictGet Phases.shortToPhase phase).getD phase

/-- The constructor: converter, then validator. /repo/versions/segments/tags.py 47-60. -/
def create (cls : TagClass) (phase : PyStr) (value : Int := 0) : Except PyErr Tag :=
  let phase := convertPhase phase
  if phase ∈ cls.phaseSet then .ok ⟨phase, value⟩ else .error .valueError

/-- `cls()`: default phase and value, /repo/versions/segments/tags.py 50-55. The default is converted and
validated too; for the three classes that changes nothing (`C11_default_tags`). -/
def default (cls : TagClass) : Except PyErr Tag := create cls cls.defaultPhase 0

/-- /repo/versions/segments/tags.py 78-88. -/
def defaultPhaseWithValue (cls : TagClass) (value : Int) : Except PyErr Tag := create cls cls.defaultPhase value

/-- /repo/versions/segments/tags.py 90-95. -/
def short (t : Tag) : PyStr := (dictGet Phases.toShort t.phase).getD t.phase

/-- /repo/versions/segments/tags.py 97-102. -/
def normal (t : Tag) : PyStr := (dictGet Phases.toNormal t.phase).getD t.phase

/-- /repo/versions/segments/tags.py 112-121 (`evolve` calls the constructor). -/
def setPhase (cls : TagClass) (t : Tag) (phase : PyStr) : Except PyErr Tag := create cls phase t.value

/-- /repo/versions/segments/tags.py 123-132 (`evolve` calls the constructor). -/
def setValue (cls : TagClass) (t : Tag) (value : Int) : Except PyErr Tag := create cls t.phase value

/-- /repo/versions/segments/tags.py 104-110. -/
def normalize (cls : TagClass) (t : Tag) : Except PyErr Tag := t.setPhase cls t.normal

/-- /repo/versions/segments/tags.py 134-140. -/
def next (cls : TagClass) (t : Tag) : Except PyErr Tag := t.setValue cls (increment t.value)

/-- /repo/versions/segments/tags.py 142-150. -/
def nextPhase (cls : TagClass) (t : Tag) (value : Int := 0) : Except PyErr (Option Tag) :=
  match dictGet Phases.toNext t.phase with
  | none => .ok none
  | some phase => do
    let t ← t.setPhase cls phase
    let t ← t.setValue cls value
    .ok (some t)

end Tag

/-! ## Local: /repo/versions/segments/local.py -/

/-- `LocalPart`: /repo/versions/segments/typing.py 27. -/
inductive LocalPart
  | int (n : Int)
  | str (s : PyStr)
  deriving DecidableEq, Repr

/-- /repo/versions/segments/local.py 23-32. -/
structure Local where
  parts : List LocalPart
  deriving DecidableEq, Repr

namespace Local

/-- The constructor with its validator, /repo/versions/segments/local.py 34-37, 48-58. -/
def create (parts : List LocalPart) : Except PyErr Local :=
  if parts.isEmpty then .error .valueError else .ok ⟨parts⟩

/-- /repo/versions/segments/local.py 44. -/
def comparePart : LocalPart → Ext Int × PyStr
  | .int n => (.fin n, [])
  | .str s => (.negInf, s)

/-- /repo/versions/segments/local.py 39-46. -/
def compareParts (l : Local) : List (Ext Int × PyStr) := l.parts.map comparePart

end Local

/-- attrs `eq`/`order` on the single field `compare_parts`, /repo/versions/segments/local.py 23, 30-32. -/
instance : PyCmp Local := attrsCmp (fun l => [l.compareParts])

end Verif
