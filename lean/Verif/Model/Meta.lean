import Verif.Model.Functions
/-!
# Versions of the library and of Python: /repo/versions/meta.py, /repo/versions/versioned.py, /repo/versions/main.py

`sys.version_info` is an argument. The command line is modelled from the three flags to the printed line; `click` is not
modelled.
-/

namespace Verif

/-- Objects with a string `__version__`, /repo/versions/versioned.py 20-27. -/
structure Versioned where
  version : PyStr

/-- `get_version`, /repo/versions/versioned.py 59-71. -/
def getVersion (hash : PyStr → Int) (item : Versioned) : Cached PyStr Version Version := parseVersion hash item.version

/-- The module `versions`, /repo/versions/__init__.py 27. -/
def versionsModule : Versioned := ⟨"2.1.2".toList⟩

/-- `version_info`, /repo/versions/meta.py 10 (the cache is empty while the module is loaded). -/
def versionInfo : Except PyErr Version := (getVersion (fun _ => 0) versionsModule []).1

/-- `sys.version_info`. -/
structure SysVersion where
  major : Int
  minor : Int
  micro : Int
  releaselevel : PyStr
  serial : Int

/-- `python_version_info`, /repo/versions/meta.py 15-26. -/
def SysVersion.versionInfo (s : SysVersion) : Except PyErr Version :=
  if s.releaselevel = "final".toList then Version.fromParts [s.major, s.minor, s.micro] none none none none none
  else do
    let pre ← Tag.create .pre s.releaselevel s.serial
    (← Version.fromParts [s.major, s.minor, s.micro] none (some pre) none none none).normalize

/-- What `versions` prints, without the newline, /repo/versions/main.py 12-25. -/
def mainOutput (raw python normal : Bool) (s : SysVersion) : Except PyErr PyStr := do
  let version ← if python then s.versionInfo else versionInfo
  let name := if python then "python".toList else "versions".toList
  let string ← if normal then version.toPep440Str else .ok version.toStr
  .ok (if raw then string else name ++ ' ' :: string)

end Verif
