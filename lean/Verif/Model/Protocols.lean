import Verif.Model.SetOperators
import Verif.Model.Specifiers
/-!
# Specifications, type guards and `Version.matches`
-/

namespace Verif

/-- A value handed to a type guard or to `Version.matches`: a specifier, a version set, a version, or anything else. -/
inductive Value
  | specifier (s : Specifier)
  | set (x : VSet)
  | version (v : Version)
  | other

namespace Value

/-- `isinstance` against the classes of /repo/versions/specifiers.py: `Specifier` and its five subclasses (193-272). -/
def isSpecifier : Value → Bool
  | specifier _ => true
  | _ => false
def isSpecifierNever : Value → Bool
  | specifier .never => true
  | _ => false
def isSpecifierAlways : Value → Bool
  | specifier .always => true
  | _ => false
def isSpecifierOne : Value → Bool
  | specifier (.one _) => true
  | _ => false
def isSpecifierAny : Value → Bool
  | specifier (.any _) => true
  | _ => false
def isSpecifierAll : Value → Bool
  | specifier (.all _) => true
  | _ => false

/-- `isinstance` against the classes of /repo/versions/version_sets.py, 276-333; `VersionPoint` is a subclass of
`VersionRange` (927). -/
def isVersionEmpty : Value → Bool
  | set .empty => true
  | _ => false
def isVersionPoint : Value → Bool
  | set (.item (.point _)) => true
  | _ => false
def isVersionRange : Value → Bool
  | set (.item _) => true
  | _ => false
def isVersionUnion : Value → Bool
  | set (.union _) => true
  | _ => false
/-- /repo/versions/version_sets.py 316-323, 1340-1349: `VersionItemTypes` are `VersionPoint` and `VersionRange`. -/
def isVersionItem (x : Value) : Bool := x.isVersionPoint || x.isVersionRange
/-- /repo/versions/version_sets.py 326-333: `VersionSetTypes` are the four classes. -/
def isVersionSet (x : Value) : Bool := x.isVersionEmpty || x.isVersionPoint || x.isVersionRange || x.isVersionUnion
/-- /repo/versions/specification.py 36-37: the value has a method `accepts`. Specifiers and sets have one. -/
def isSpecification : Value → Bool
  | specifier _ => true
  | set _ => true
  | _ => false

/-- `specification.accepts(version)`. -/
def accepts : Value → Version → Except PyErr Bool
  | specifier s, v => s.accepts v
  | set x, v => .ok (x.accepts v)
  | _, _ => .error .attributeError

/-- `specifier_to_version_set`, /repo/versions/converters.py 58-84, on any value. -/
def toSet (lim : Nat) : Value → Except PyErr VSet
  | specifier s => s.toSet lim
  | _ => .error .typeError

/-- `version_set_to_specifier`, /repo/versions/converters.py 94-124, on any value. -/
def fromSet (lim : Nat) : Value → Except PyErr Specifier
  | set x => Specifier.fromSet lim x
  | _ => .error .typeError

end Value

/-- /repo/versions/version.py 955-964. -/
def Version.matches_ (v : Version) (specification : Value) : Except PyErr Bool := specification.accepts v

end Verif
