import Verif.Model.Parsers
/-!
# The class `Tag` itself: /repo/versions/segments/tags.py 40-178

`PreTag`, `PostTag` and `DevTag` are final subclasses of `Tag`, which can be used itself: it allows all phases. The methods
are those of `Model/Segments` and `Model/Parsers`, with the phase set and the default phase of `Tag`.
-/

namespace Verif.BaseTag

/-- `PHASE_ALL_SET`, /repo/versions/phases.py 109; tags.py 45. -/
def phaseSet : List PyStr := Phases.preSet ++ Phases.postSet ++ Phases.devSet

/-- `PHASE_ALL_DEFAULT`, /repo/versions/phases.py 107; tags.py 44. -/
def defaultPhase : PyStr := TagClass.pre.defaultPhase

/-- The constructor: converter, then validator. /repo/versions/segments/tags.py 47-60. -/
def create (phase : PyStr) (value : Int := 0) : Except PyErr Tag :=
  let phase := Tag.convertPhase phase
  if phase ∈ phaseSet then .ok ⟨phase, value⟩ else .error .valueError

/-- `Tag.create`, /repo/versions/segments/tags.py 62-76. -/
def createOptional (phase : Option PyStr) (value : Int := 0) : Except PyErr Tag :=
  match phase with
  | none => create defaultPhase value
  | some phase => create phase value

/-- /repo/versions/segments/tags.py 112-121. -/
def setPhase (t : Tag) (phase : PyStr) : Except PyErr Tag := create phase t.value
/-- /repo/versions/segments/tags.py 123-132. -/
def setValue (t : Tag) (value : Int) : Except PyErr Tag := create t.phase value
/-- /repo/versions/segments/tags.py 104-110. -/
def normalize (t : Tag) : Except PyErr Tag := setPhase t t.normal
/-- /repo/versions/segments/tags.py 134-140. -/
def next (t : Tag) : Except PyErr Tag := setValue t (increment t.value)
/-- /repo/versions/segments/tags.py 142-150. -/
def nextPhase (t : Tag) (value : Int := 0) : Except PyErr (Option Tag) :=
  match dictGet Phases.toNext t.phase with
  | none => .ok none
  | some phase => do
    let t ← setPhase t phase
    let t ← setValue t value
    .ok (some t)

/-- `Tag.from_string`, /repo/versions/segments/tags.py 152-162: `TagParser(Tag).parse`, /repo/versions/parsers.py 75-95. -/
def parse (s : PyStr) : Except PyErr Tag :=
  match Pattern.tag.fullmatch s with
  | none => .error .parseTagError
  | some m =>
    match Re.get .phase m with
    | none => .error .internalError
    | some phase =>
      match Re.get .value m with
      | none => create phase
      | some value => do create phase (← pyInt value)

end Verif.BaseTag
