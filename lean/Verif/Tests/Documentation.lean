import Verif.Tests.Repository
import Verif.Model.Protocols

/-!
The examples of /repo/README.md and of the docstrings in /repo/versions, transcribed and evaluated by the kernel on the
model. They are tests, not proofs, and nothing depends on this file.
-/

namespace Verif.Tests

/-- `>>> expression` followed by the `repr` of its value. -/
def shows {α : Type} (repr : α → PyStr) (result : Except PyErr α) (expected : String) : Bool :=
  match result with
  | .ok x => decide (repr x = expected.toList)
  | .error _ => false

/-- `>>> print(expression)` for strings that may fail. -/
def prints (result : Except PyErr PyStr) (expected : String) : Bool :=
  match result with
  | .ok s => decide (s = expected.toList)
  | .error _ => false

/-- `next(parse_version(string))`. -/
def after {α : Type} (next : Version → Except PyErr α) (string : String) : Except PyErr α := do
  next (← Version.parse string.toList)

/-- The calls of /repo/versions/functions.py, with empty caches. -/
def versionOf (string : String) : Except PyErr Version := (parseVersion (fun _ => 0) string.toList []).1
def specifierOf (string : String) : Except PyErr Specifier := (parseSpecifier (fun _ => 0) string.toList []).1
def setOf (string : String) : Except PyErr VSet := VSet.parse 1000 string.toList

/-- `assert parse_version(version).matches(parse_specifier(specification))`, and the same with `parse_version_set`. -/
def matching (version specification : String) : Except PyErr (Bool × Bool) := do
  let v ← versionOf version
  .ok (← v.matches_ (.specifier (← specifierOf specification)), ← v.matches_ (.set (← setOf specification)))

/-! /repo/versions/__init__.py 5-18 -/

example : shows Version.repr (versionOf "1.0.0") "<Version (1.0.0)>" := by decide +kernel
example : shows Specifier.repr (specifierOf "^1.0.0") "<SpecifierOne (^1.0.0)>" := by decide +kernel
example : prints (do (← setOf "^1.0.0").repr 1000) "<VersionRange (>= 1.0.0, < 2.0.0)>" := by decide +kernel
example : matching "1.0.0" "^1.0.0" = .ok (true, true) := by decide +kernel

/-! /repo/README.md 60-68 -/

example : prints (do .ok (← versionOf "1.0.0-dev.1+build.1").toStr) "1.0.0-dev.1+build.1" := by decide +kernel

/-! /repo/README.md 70-87 -/

example : prints (do .ok (← versionOf "1.0.0-dev.1+build.1").release.toStr) "1.0.0" := by decide +kernel
example : (do .ok (← versionOf "1.0.0-dev.1+build.1").release.parts) = .ok [1, 0, 0] := by decide +kernel
example : (do .ok ((← versionOf "1.0.0-dev.1+build.1").dev.map Tag.toStr)) = .ok (some "dev.1".toList) := by decide +kernel
example : (do .ok ((← versionOf "1.0.0-dev.1+build.1").dev.map fun (t : Tag) => (t.phase, t.value))) = .ok (some ("dev".toList, 1)) := by decide +kernel
example : (do .ok ((← versionOf "1.0.0-dev.1+build.1").local_.map Local.toStr)) = .ok (some "build.1".toList) := by decide +kernel
example : (do .ok ((← versionOf "1.0.0-dev.1+build.1").local_.map Local.parts)) = .ok (some [.str "build".toList, .int 1]) := by decide +kernel

/-! /repo/README.md 89-108 -/

example : (do
    let v1 ← versionOf "1.0.0"
    let v2 ← versionOf "2.0.0"
    .ok [PyCmp.eq v1 v2, !PyCmp.eq v1 v2, PyCmp.ge v1 v2, PyCmp.le v1 v2, PyCmp.gt v1 v2, PyCmp.lt v1 v2]) =
    .ok [false, true, false, true, false, true] := by decide +kernel

/-! /repo/README.md 110-146 -/

example : matching "1.3.0" "^1.0.0" = .ok (true, true) := by decide +kernel
example : matching "2.2.0" "^1.0.0" = .ok (false, false) := by decide +kernel

/-! /repo/README.md 148-157 -/

example : shows Version.repr (getVersion (fun _ => 0) versionsModule []).1 "<Version (2.1.2)>" := by decide +kernel

/-! /repo/versions/version.py 839-856: the table of `next_breaking` -/

example : shows Version.toStr (after Version.nextBreaking "1.2.3") "2.0.0" := by decide +kernel
example : shows Version.toStr (after Version.nextBreaking "1.2.0") "2.0.0" := by decide +kernel
example : shows Version.toStr (after Version.nextBreaking "1.0.0") "2.0.0" := by decide +kernel
example : shows Version.toStr (after Version.nextBreaking "0.2.3") "0.3.0" := by decide +kernel
example : shows Version.toStr (after Version.nextBreaking "0.0.3") "0.0.4" := by decide +kernel
example : shows Version.toStr (after Version.nextBreaking "0.0.0") "0.0.1" := by decide +kernel
-- the last two rows hold up to `==`: the code does not pad
example : gives (after Version.nextBreaking "0.0") (V [0, 1, 0]) ∧ shows Version.toStr (after Version.nextBreaking "0.0") "0.1" := by decide +kernel
example : gives (after Version.nextBreaking "0") (V [1, 0, 0]) ∧ shows Version.toStr (after Version.nextBreaking "0") "1" := by decide +kernel

/-! /repo/versions/operators.py 89-97, 116-132, 154-162, 195-213 -/

example : shows Version.repr (after Version.nextCaretBreaking "1.0.0") "<Version (2.0.0)>" := by decide +kernel
example : shows Version.repr (after Version.nextTildeEqualBreaking "1.2.0") "<Version (1.3.0)>" := by decide +kernel
example : raises .valueError (after Version.nextTildeEqualBreaking "1") := by decide +kernel
example : shows Version.repr (after Version.nextTildeBreaking "2.1.0") "<Version (2.2.0)>" := by decide +kernel
example : shows (·.map Version.repr |>.getD []) (after Version.nextWildcardBreaking "4.2.0") "<Version (4.3.0)>" := by decide +kernel
example : shows (·.map Version.repr |>.getD []) (after Version.nextWildcardBreaking "1.2.3-rc.0") "<Version (1.2.3)>" := by decide +kernel
example : shows (·.map Version.repr |>.getD []) (after Version.nextWildcardBreaking "0.6.8-post.0") "<Version (0.6.9)>" := by decide +kernel

end Verif.Tests
