import Verif.Model.Strings
import Verif.Model.Specifiers
/-!
# Constructors and accessors of segments, and `repr`
-/

namespace Verif

/-- /repo/versions/segments/epoch.py 22-32. -/
def Epoch.create (value : Int := 0) : Epoch := ⟨value⟩

namespace Release
/-- /repo/versions/segments/release.py 65-75. -/
def fromIterable (parts : List Int) : Except PyErr Release := create parts
/-- /repo/versions/segments/release.py 77-87. -/
def fromParts (parts : List Int) : Except PyErr Release := create parts
/-- /repo/versions/segments/release.py 89-95. -/
def intoParts (r : Release) : List Int := r.parts
/-- /repo/versions/segments/release.py 97-106 (`evolve` calls the constructor). -/
def setParts (_ : Release) (parts : List Int) : Except PyErr Release := create parts
end Release

namespace Local
/-- /repo/versions/segments/local.py 60-70. -/
def fromIterable (parts : List LocalPart) : Except PyErr Local := create parts
/-- /repo/versions/segments/local.py 72-82. -/
def fromParts (parts : List LocalPart) : Except PyErr Local := create parts
/-- /repo/versions/segments/local.py 84-90. -/
def intoParts (l : Local) : List LocalPart := l.parts
/-- /repo/versions/segments/local.py 92-101 (`evolve` calls the constructor). -/
def setParts (_ : Local) (parts : List LocalPart) : Except PyErr Local := create parts
end Local

/-- `Tag.create`, /repo/versions/segments/tags.py 62-76. -/
def Tag.createOptional (cls : TagClass) (phase : Option PyStr) (value : Int := 0) : Except PyErr Tag :=
  match phase with
  | none => Tag.create cls cls.defaultPhase value
  | some phase => Tag.create cls phase value

/-- `Representation.__repr__`, /repo/versions/representation.py 9-19. -/
def representation (name : String) (wrap : Bool) (string : PyStr) : PyStr :=
  '<' :: name.toList ++ ' ' :: (if wrap then wrapAround string else string) ++ ['>']

/-- `get_type_name` of a tag. -/
def TagClass.name : TagClass → String
  | .pre => "PreTag"
  | .post => "PostTag"
  | .dev => "DevTag"

def Version.repr (v : Version) : PyStr := representation "Version" true v.toStr
def Epoch.repr (e : Epoch) : PyStr := representation "Epoch" true e.toStr
def Release.repr (r : Release) : PyStr := representation "Release" true r.toStr
def Tag.repr (cls : TagClass) (t : Tag) : PyStr := representation cls.name true t.toStr
def Local.repr (l : Local) : PyStr := representation "Local" true l.toStr
def Operator.repr (o : Operator) : PyStr := representation "Operator" true o.toStr

/-- `WRAP` is false for the two joined specifiers, /repo/versions/specifiers.py 107, 153. -/
def Specifier.repr (s : Specifier) : PyStr := match s with
  | never => representation "SpecifierNever" true s.toStr
  | always => representation "SpecifierAlways" true s.toStr
  | one _ => representation "SpecifierOne" true s.toStr
  | any _ => representation "SpecifierAny" false s.toStr
  | all _ => representation "SpecifierAll" false s.toStr

/-- The classes of version sets, /repo/versions/version_sets.py 341, 391, 927, 1023; they keep `WRAP`. -/
def VSet.className : VSet → String
  | empty => "VersionEmpty"
  | item (.range _) => "VersionRange"
  | item (.point _) => "VersionPoint"
  | union _ => "VersionUnion"
def VSet.repr (lim : Nat) (x : VSet) : Except PyErr PyStr := do .ok (representation x.className true (← x.toStr lim))

end Verif
