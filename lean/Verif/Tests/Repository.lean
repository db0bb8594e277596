import Verif.Model.Functions
import Verif.Model.Meta
import Verif.Model.Accessors
import Verif.Model.OperatorTypes
import Verif.Model.Records

/-!
The tests of /repo/tests, transcribed case by case and evaluated by the kernel on the model. They are tests, not
proofs: they check that the model answers what the project's own tests say the code answers. Nothing depends on this
file.
-/

namespace Verif.Tests

/-- `Version.from_parts(*parts, epoch=…, pre=…, post=…, dev=…, local=…)`. -/
def V (parts : List Int) (epoch : Int := 0) (pre post dev : Option Tag := none) (l : Option Local := none) : Version :=
  ⟨⟨epoch⟩, ⟨parts⟩, pre, post, dev, l⟩

/-- A tag. -/
def T (phase : String) (value : Int) : Option Tag := some ⟨phase.toList, value⟩

/-- `Local.from_parts("build", 1)`. -/
def build1 : Option Local := some ⟨[.str "build".toList, .int 1]⟩

/-- `SpecifierOne(type, Version.from_parts(*parts))`. -/
def One (type : OpType) (parts : List Int) : Specifier := .one ⟨type, V parts⟩

/-- `VersionRange(min=…, max=…, include_min=…, include_max=…)`. -/
def R (a b : Option (List Int)) (ia ib : Bool) : Item := .range ⟨a.map (V ·), b.map (V ·), ia, ib⟩

/-- `VersionPoint(Version.from_parts(*parts))`. -/
def P (parts : List Int) : Item := .point (V parts)

/-- `assert result == version`. -/
def gives (result : Except PyErr Version) (version : Version) : Bool :=
  match result with
  | .ok v => PyCmp.eq v version
  | .error _ => false

/-- `assert result == specifier`. -/
def givesSpecifier (result : Except PyErr Specifier) (specifier : Specifier) : Bool :=
  match result with
  | .ok s => s.eq specifier
  | .error _ => false

/-- `assert result == version_set`. -/
def givesSet (result : Except PyErr VSet) (set : VSet) : Bool :=
  match result with
  | .ok s => s.eq set
  | .error _ => false

/-- `with pytest.raises(error)`. -/
def raises {α : Type} (error : PyErr) : Except PyErr α → Bool
  | .ok _ => false
  | .error e => decide (e = error)

/-- /repo/tests/test_comparison.py 48-59: `strings` in increasing order, every operator on every pair. -/
def ordered (strings : List String) : Bool :=
  match mapAll (fun s : String => Version.parse s.toList) strings with
  | .error _ => false
  | .ok versions =>
    versions.zipIdx.all fun (v, i) => versions.zipIdx.all fun (u, j) =>
      (decide (i = j) == PyCmp.eq v u) && (decide (i ≠ j) == !PyCmp.eq v u) && (decide (i ≤ j) == PyCmp.le v u) &&
        (decide (i ≥ j) == PyCmp.ge v u) && (decide (i < j) == PyCmp.lt v u) && (decide (i > j) == PyCmp.gt v u)

/-! /repo/tests/test_comparison.py -/

example : ordered [
    "1.0.0-alpha", "1.0.0-alpha.1", "1.0.0-beta", "1.0.0-beta.1",
    "1.0.0-rc.1", "1.0.0-rc.1+build.1", "1.0.0", "1.0.0+build",
    "1.0.0+build.1", "1.0.0+1", "1.2.0", "1.2.3",
    "1.3.0", "2.0.0", "2.2.0"] = true :=
  by decide +kernel

example : ordered [
    "1.0.0-dev.0", "1.0.0-alpha.0-dev.0", "1.0.0-alpha.0", "1.0.0-alpha.1-dev.0",
    "1.0.0-beta.0-dev.0", "1.0.0-beta.1", "1.0.0-beta.1-post.0-dev.0", "1.0.0-beta.1-post.0",
    "1.0.0-rc.1", "1.0.0", "1.0.0+build.0", "1.0.0+build.1",
    "1.0.0-post.0-dev.0", "1.0.0-post.0", "1.1.1-dev.1"] = true :=
  by decide +kernel


/-! /repo/tests/test_parse_version.py -/

example : gives (Version.parse "0".toList) (V [0]) := by decide +kernel
example : gives (Version.parse "0.0".toList) (V [0, 0]) := by decide +kernel
example : gives (Version.parse "0.0.0".toList) (V [0, 0, 0]) := by decide +kernel
example : gives (Version.parse "0.0.0.0".toList) (V [0, 0, 0, 0]) := by decide +kernel
example : gives (Version.parse "1".toList) (V [1]) := by decide +kernel
example : gives (Version.parse "1.2".toList) (V [1, 2]) := by decide +kernel
example : gives (Version.parse "1.2.3".toList) (V [1, 2, 3]) := by decide +kernel
example : gives (Version.parse "1.2.3.4".toList) (V [1, 2, 3, 4]) := by decide +kernel
example : gives (Version.parse "1.0.0a".toList) (V [1, 0, 0] (pre := T "alpha" 0)) := by decide +kernel
example : gives (Version.parse "1.0.0b1".toList) (V [1, 0, 0] (pre := T "beta" 1)) := by decide +kernel
example : gives (Version.parse "1.0.0-rc.1".toList) (V [1, 0, 0] (pre := T "rc" 1)) := by decide +kernel
example : gives (Version.parse "1.0.0-1".toList) (V [1, 0, 0] (post := T "post" 1)) := by decide +kernel
example : gives (Version.parse "1.0.0-post".toList) (V [1, 0, 0] (post := T "post" 0)) := by decide +kernel
example : gives (Version.parse "1.0.0-post.1".toList) (V [1, 0, 0] (post := T "post" 1)) := by decide +kernel
example : gives (Version.parse "1.0.0+build.1".toList) (V [1, 0, 0] (l := build1)) := by decide +kernel
example : gives (Version.parse "1!1.0.0".toList) (V [1, 0, 0] (epoch := 1)) := by decide +kernel
example : raises .parseVersionError (Version.parse "1.0.0.".toList) := by decide +kernel
example : raises .parseVersionError (Version.parse "1.0.0-".toList) := by decide +kernel
example : raises .parseVersionError (Version.parse "1.0.0+".toList) := by decide +kernel
example : raises .parseVersionError (Version.parse "broken".toList) := by decide +kernel

/-! /repo/tests/test_parse_specifier.py -/

example : givesSpecifier (Specifier.parse "~= 3.2".toList) (One .tildeEqual [3, 2]) := by decide +kernel
example : givesSpecifier (Specifier.parse "== 4.2".toList) (One .doubleEqual [4, 2]) := by decide +kernel
example : givesSpecifier (Specifier.parse "!= 2.5".toList) (One .notEqual [2, 5]) := by decide +kernel
example : givesSpecifier (Specifier.parse "<= 6.9".toList) (One .lessOrEqual [6, 9]) := by decide +kernel
example : givesSpecifier (Specifier.parse ">= 1.3".toList) (One .greaterOrEqual [1, 3]) := by decide +kernel
example : givesSpecifier (Specifier.parse "< 6.4".toList) (One .less [6, 4]) := by decide +kernel
example : givesSpecifier (Specifier.parse "> 0.7".toList) (One .greater [0, 7]) := by decide +kernel
example : givesSpecifier (Specifier.parse "^3.4".toList) (One .caret [3, 4]) := by decide +kernel
example : givesSpecifier (Specifier.parse "~1.8".toList) (One .tilde [1, 8]) := by decide +kernel
example : givesSpecifier (Specifier.parse "~7".toList) (One .tilde [7]) := by decide +kernel
example : givesSpecifier (Specifier.parse "= 8.8".toList) (One .equal [8, 8]) := by decide +kernel
example : givesSpecifier (Specifier.parse "1.0".toList) (One .equal [1, 0]) := by decide +kernel
example : givesSpecifier (Specifier.parse "= 1.3.*".toList) (One .wildcardEqual [1, 3]) := by decide +kernel
example : givesSpecifier (Specifier.parse "== 7.7.*".toList) (One .wildcardDoubleEqual [7, 7]) := by decide +kernel
example : givesSpecifier (Specifier.parse "!= 4.2.*".toList) (One .wildcardNotEqual [4, 2]) := by decide +kernel
example : givesSpecifier (Specifier.parse "*".toList) (One .wildcardEqual [0]) := by decide +kernel
example : givesSpecifier (Specifier.parse "!= *".toList) (One .wildcardNotEqual [0]) := by decide +kernel
example : givesSpecifier (Specifier.parse ">= 3.7, < 4.0".toList) (.all [(One .greaterOrEqual [3, 7]), (One .less [4,
    0])]) := by decide +kernel
example : givesSpecifier (Specifier.parse "^2.7 || ^3.7".toList) (.any [(One .caret [2, 7]), (One .caret [3, 7])]) :=
    by decide +kernel
example : raises .parseSpecificationError (Specifier.parse "1.0.0.".toList) := by decide +kernel
example : raises .parseSpecificationError (Specifier.parse "1.0.0-".toList) := by decide +kernel
example : raises .parseSpecificationError (Specifier.parse "1.0.0+".toList) := by decide +kernel
example : raises .parseSpecificationError (Specifier.parse "broken".toList) := by decide +kernel

/-! /repo/tests/test_parse_version_set.py -/

example : givesSet (VSet.parse 1000 "~= 3.2".toList) (.item (R (some [3, 2]) (some [4, 0]) true false)) := by
    decide +kernel
example : givesSet (VSet.parse 1000 "== 4.2".toList) (.item (P [4, 2])) := by decide +kernel
example : givesSet (VSet.parse 1000 "!= 2.5".toList) (.union [R none (some [2, 5]) false false, R (some [2, 5]) none
    false false]) := by decide +kernel
example : givesSet (VSet.parse 1000 "<= 6.9".toList) (.item (R none (some [6, 9]) false true)) := by decide +kernel
example : givesSet (VSet.parse 1000 ">= 1.3".toList) (.item (R (some [1, 3]) none true false)) := by decide +kernel
example : givesSet (VSet.parse 1000 "< 6.4".toList) (.item (R none (some [6, 4]) false false)) := by decide +kernel
example : givesSet (VSet.parse 1000 "> 0.7".toList) (.item (R (some [0, 7]) none false false)) := by decide +kernel
example : givesSet (VSet.parse 1000 "^3.4".toList) (.item (R (some [3, 4]) (some [4, 0]) true false)) := by
    decide +kernel
example : givesSet (VSet.parse 1000 "~1.8".toList) (.item (R (some [1, 8]) (some [1, 9]) true false)) := by
    decide +kernel
example : givesSet (VSet.parse 1000 "~7".toList) (.item (R (some [7]) (some [8]) true false)) := by decide +kernel
example : givesSet (VSet.parse 1000 "= 8.8".toList) (.item (P [8, 8])) := by decide +kernel
example : givesSet (VSet.parse 1000 "1.0".toList) (.item (P [1, 0])) := by decide +kernel
example : givesSet (VSet.parse 1000 "= 1.3.*".toList) (.item (R (some [1, 3, 0]) (some [1, 4, 0]) true false)) := by
    decide +kernel
example : givesSet (VSet.parse 1000 "== 7.7.*".toList) (.item (R (some [7, 7]) (some [7, 8]) true false)) := by
    decide +kernel
example : givesSet (VSet.parse 1000 "!= 4.2.*".toList) (.union [R none (some [4, 2]) false false, R (some [4, 3]) none
    true false]) := by decide +kernel
example : givesSet (VSet.parse 1000 "*".toList) (.item (R none none false false)) := by decide +kernel
example : givesSet (VSet.parse 1000 "!= *".toList) .empty := by decide +kernel
example : givesSet (VSet.parse 1000 ">= 3.7, < 4.0".toList) (.item (R (some [3, 7]) (some [4, 0]) true false)) := by
    decide +kernel
example : givesSet (VSet.parse 1000 "^2.7 || ^3.7".toList) (.union [R (some [2, 7]) (some [3, 0]) true false, R (some
    [3, 7]) (some [4, 0]) true false]) := by decide +kernel
example : raises .parseSpecificationError (VSet.parse 1000 "1.0.0.".toList) := by decide +kernel
example : raises .parseSpecificationError (VSet.parse 1000 "1.0.0-".toList) := by decide +kernel
example : raises .parseSpecificationError (VSet.parse 1000 "1.0.0+".toList) := by decide +kernel
example : raises .parseSpecificationError (VSet.parse 1000 "broken".toList) := by decide +kernel

/-! /repo/tests/test_converters.py -/

example : givesSpecifier (Specifier.fromSet 1000 .empty) .never := by decide +kernel
example : givesSet (Specifier.toSet 1000 .never) .empty := by decide +kernel
example : givesSpecifier (Specifier.fromSet 1000 (.item (R none none false false))) .always := by decide +kernel
example : givesSet (Specifier.toSet 1000 .always) (.item (R none none false false)) := by decide +kernel
example : givesSpecifier (Specifier.fromSet 1000 (.item (R (some [1, 0, 0]) (some [1, 0, 0]) false false))) .never :=
    by decide +kernel
example : givesSet (Specifier.toSet 1000 .never) .empty := by decide +kernel
example : givesSpecifier (Specifier.fromSet 1000 (.item (R (some [2, 0, 0]) (some [2, 0, 0]) true true))) (One
    .doubleEqual [2, 0, 0]) := by decide +kernel
example : givesSet (Specifier.toSet 1000 (One .doubleEqual [2, 0, 0])) (.item (P [2, 0, 0])) := by decide +kernel
example : givesSpecifier (Specifier.fromSet 1000 (.item (P [3, 0, 0]))) (One .doubleEqual [3, 0, 0]) := by
    decide +kernel
example : givesSet (Specifier.toSet 1000 (One .doubleEqual [3, 0, 0])) (.item (P [3, 0, 0])) := by decide +kernel
example : givesSpecifier (Specifier.fromSet 1000 (.item (R (some [4, 0, 0]) none true false))) (One .greaterOrEqual
    [4, 0, 0]) := by decide +kernel
example : givesSet (Specifier.toSet 1000 (One .greaterOrEqual [4, 0, 0])) (.item (R (some [4, 0, 0]) none true false))
    := by decide +kernel
example : givesSpecifier (Specifier.fromSet 1000 (.item (R none (some [5, 0, 0]) false true))) (One .lessOrEqual [5,
    0, 0]) := by decide +kernel
example : givesSet (Specifier.toSet 1000 (One .lessOrEqual [5, 0, 0])) (.item (R none (some [5, 0, 0]) false true)) :=
    by decide +kernel
example : givesSpecifier (Specifier.fromSet 1000 (.union [R none (some [7, 0, 0]) false false, R (some [7, 0, 0]) none
    false false])) (One .notEqual [7, 0, 0]) := by decide +kernel
example : givesSet (Specifier.toSet 1000 (One .notEqual [7, 0, 0])) (.union [R none (some [7, 0, 0]) false false, R
    (some [7, 0, 0]) none false false]) := by decide +kernel
example : givesSpecifier (Specifier.fromSet 1000 (.union [R (some [8, 0, 0]) (some [9, 0, 0]) true false, R (some [10,
    0, 0]) none true false])) (.any [(.all [(One .greaterOrEqual [8, 0, 0]), (One .less [9, 0, 0])]), (One
    .greaterOrEqual [10, 0, 0])]) := by decide +kernel
example : givesSet (Specifier.toSet 1000 (.any [(.all [(One .greaterOrEqual [8, 0, 0]), (One .less [9, 0, 0])]), (One
    .greaterOrEqual [10, 0, 0])])) (.union [R (some [8, 0, 0]) (some [9, 0, 0]) true false, R (some [10, 0, 0]) none
    true false]) := by decide +kernel

/-! /repo/tests/test_simplify.py -/

example : givesSpecifier (Specifier.simplify 1000 (.all [(.all [(One .greaterOrEqual [1, 0, 0]), (One .lessOrEqual [3,
    0, 0])]), (.all [(One .greaterOrEqual [2, 0, 0]), (One .lessOrEqual [4, 0, 0])])])) (.all [(One .greaterOrEqual
    [2, 0, 0]), (One .lessOrEqual [3, 0, 0])]) := by decide +kernel
example : givesSpecifier (Specifier.simplify 1000 (.any [(.all [(One .greaterOrEqual [1, 0, 0]), (One .lessOrEqual [3,
    0, 0])]), (.all [(One .greaterOrEqual [2, 0, 0]), (One .lessOrEqual [4, 0, 0])])])) (.all [(One .greaterOrEqual
    [1, 0, 0]), (One .lessOrEqual [4, 0, 0])]) := by decide +kernel
example : givesSpecifier (Specifier.simplify 1000 (One .caret [1, 0, 0])) (.all [(One .greaterOrEqual [1, 0, 0]), (One
    .less [2, 0, 0])]) := by decide +kernel
example : givesSpecifier (Specifier.simplify 1000 (One .tilde [1, 0, 0])) (.all [(One .greaterOrEqual [1, 0, 0]), (One
    .less [1, 1, 0])]) := by decide +kernel
example : givesSpecifier (Specifier.simplify 1000 (One .wildcardEqual [0])) .always := by decide +kernel
example : givesSpecifier (Specifier.simplify 1000 (One .wildcardNotEqual [0])) .never := by decide +kernel
example : givesSpecifier (Specifier.simplify 1000 (One .tildeEqual [1, 0, 0])) (.all [(One .greaterOrEqual [1, 0, 0]),
    (One .less [1, 1, 0])]) := by decide +kernel
example : givesSpecifier (Specifier.simplify 1000 (One .equal [1, 0, 0])) (One .equal [1, 0, 0]) := by decide +kernel
example : givesSpecifier (Specifier.simplify 1000 .always) .always := by decide +kernel
example : givesSpecifier (Specifier.simplify 1000 .never) .never := by decide +kernel

/-! /repo/tests/test_version.py -/

example : gives (Version.nextBreaking (V [1, 2, 3])) (V [2, 0, 0]) := by decide +kernel
example : gives (Version.nextBreaking (V [1, 2, 0])) (V [2, 0, 0]) := by decide +kernel
example : gives (Version.nextBreaking (V [1, 0, 0])) (V [2, 0, 0]) := by decide +kernel
example : gives (Version.nextBreaking (V [0, 2, 3])) (V [0, 3, 0]) := by decide +kernel
example : gives (Version.nextBreaking (V [0, 0, 3])) (V [0, 0, 4]) := by decide +kernel
example : gives (Version.nextBreaking (V [0, 0, 0])) (V [0, 0, 1]) := by decide +kernel
example : gives (Version.nextBreaking (V [0, 0])) (V [0, 1, 0]) := by decide +kernel
example : gives (Version.nextBreaking (V [0])) (V [1, 0, 0]) := by decide +kernel

/-- The fixtures of /repo/tests/test_version.py 30-190. -/
def v100 : Version := V [1, 0, 0]
def v100dev0 : Version := V [1, 0, 0] (dev := T "dev" 0)
def v100dev1 : Version := V [1, 0, 0] (dev := T "dev" 1)
def v100alpha0 : Version := V [1, 0, 0] (pre := T "alpha" 0)
def v100beta1 : Version := V [1, 0, 0] (pre := T "beta" 1)
def v100rc0 : Version := V [1, 0, 0] (pre := T "rc" 0)
def v100rc1 : Version := V [1, 0, 0] (pre := T "rc" 1)
def v100build1 : Version := V [1, 0, 0] (l := build1)
def v100post0 : Version := V [1, 0, 0] (post := T "post" 0)
def v100post1 : Version := V [1, 0, 0] (post := T "post" 1)
def v1e100full : Version := V [1, 0, 0] 1 (T "alpha" 1) (T "post" 1) (T "dev" 1) build1
def v100candidate0rev0dev0 : Version := V [1, 0, 0] 0 (T "candidate" 0) (T "rev" 0) (T "dev" 0)
def v100rc0post0dev0 : Version := V [1, 0, 0] 0 (T "rc" 0) (T "post" 0) (T "dev" 0)
def v120 : Version := V [1, 2, 0]
def v130 : Version := V [1, 3, 0]
def v123 : Version := V [1, 2, 3]
def v1234 : Version := V [1, 2, 3, 4]
def v12345 : Version := V [1, 2, 3, 4, 5]
def v124 : Version := V [1, 2, 4]
def v200 : Version := V [2, 0, 0]
def v1e100 : Version := V [1, 0, 0] 1

-- `test_epoch`, `test_set_epoch`, `test_set_epoch_value`, `test_set_release`
example : v100.epoch.truthy = false ∧ v1e100.epoch.truthy = true := by decide +kernel
example : PyCmp.eq (v100.setEpoch ⟨1⟩) v1e100 ∧ PyCmp.eq (v100.setEpochValue 1) v1e100 := by decide +kernel
example : PyCmp.eq (v100.setRelease ⟨[2, 0, 0]⟩) v200 := by decide +kernel
-- `test_precision`, `test_last_index`, `test_major_minor_micro`, `test_patch_is_micro`, `test_extra`
example : v100.precision = 3 ∧ v200.lastIndex = 2 := by decide +kernel
example : v123.major = .ok 1 ∧ v123.minor = .ok 2 ∧ v123.micro = .ok 3 ∧ v120.patch = v120.micro := by decide +kernel
example : v100.extra = [] ∧ v12345.extra = [4, 5] := by decide +kernel
-- `test_get_at`, `test_get_at_unchecked`
example : v100.getAt 0 = .ok 1 ∧ v100.getAt 1 = .ok 0 ∧ v100.getAt 2 = .ok 0 ∧ v100.getAt 3 = .ok 0 := by decide +kernel
example : raises .indexError (v100.getAtUnchecked 3) := by decide +kernel
-- `test_is_semantic`, `test_to_semantic`
example : v123.isSemantic = true ∧ v12345.isSemantic = false := by decide +kernel
example : gives v130.toSemantic v130 ∧ gives v12345.toSemantic v124 := by decide +kernel
-- `test_set_major`, `test_set_minor`, `test_set_micro`, `test_set_patch_is_set_micro`
example : gives (v100.setMajor 2) v200 ∧ gives (v120.setMinor 3) v130 ∧ gives (v123.setMicro 4) v124 := by decide +kernel
example : v200.setPatch 1 = v200.setMicro 1 := by decide +kernel
-- `test_set_at`, `test_set_at_unchecked`
example : gives (v100.setAt 0 2) v200 ∧ gives (v120.setAt 1 3) v130 ∧ gives (v123.setAt 2 4) v124 ∧
    gives (v123.setAt 3 4) v1234 := by decide +kernel
example : raises .indexError (v100.setAtUnchecked 3 0) := by decide +kernel
-- `test_next_epoch`, `test_next_major`, `test_next_minor`, `test_next_micro`, `test_next_patch_is_next_micro`
example : PyCmp.eq (v100.nextEpoch) v1e100 := by decide +kernel
example : gives v100.nextMajor v200 ∧ gives v120.nextMinor v130 ∧ gives v123.nextMicro v124 := by decide +kernel
example : v200.nextPatch = v200.nextMicro := by decide +kernel
-- `test_next_at`
example : gives (v123.nextAt 0) v200 ∧ gives (v123.nextAt 1) v130 ∧ gives (v123.nextAt 2) v124 := by decide +kernel
-- `test_has_major_minor_micro_extra`, `test_has_at`, `test_has_patch_is_has_micro`
example : v1234.hasMajor ∧ v1234.hasMinor ∧ v1234.hasMicro ∧ v1234.hasExtra := by decide +kernel
example : v100.hasAt 0 = true ∧ v100.hasAt 3 = false ∧ v200.hasPatch = v200.hasMicro := by decide +kernel
-- `test_pad_to`, `test_pad_to_index`, `test_pad_to_next`
example : gives (v100.padTo 3) v100 ∧ v100.padTo 5 = .ok (V [1, 0, 0, 0, 0]) := by decide +kernel
example : gives (v200.padToIndex 2) v200 ∧ v200.padToIndex 4 = .ok (V [2, 0, 0, 0, 0]) := by decide +kernel
example : v130.padToNext = .ok (V [1, 3, 0, 0]) := by decide +kernel
-- `test_is_pre_release`, `test_is_post_release`, `test_is_dev_release`, `test_is_local`
example : v100.isPreRelease = false ∧ v100rc1.isPreRelease = true := by decide +kernel
example : v100.isPostRelease = false ∧ v100post1.isPostRelease = true := by decide +kernel
example : v100.isDevRelease = false ∧ v100dev1.isDevRelease = true := by decide +kernel
example : v100.isLocal = false ∧ v100build1.isLocal = true := by decide +kernel
-- `test_is_unstable`, `test_is_stable`
example : v100dev1.isUnstable = true ∧ v100rc1.isUnstable = true ∧ v100.isUnstable = false ∧
    v100build1.isUnstable = false := by decide +kernel
example : v100dev1.isStable = false ∧ v100rc1.isStable = false ∧ v100.isStable = true ∧
    v100build1.isStable = true := by decide +kernel
-- `test_next_pre`, `test_next_pre_phase`, `test_next_post`, `test_next_dev`
example : gives v100.nextPre v100alpha0 ∧ gives v100rc0.nextPre v100rc1 := by decide +kernel
example : v100.nextPrePhase = .ok (some v100alpha0) ∧ v100beta1.nextPrePhase = .ok (some v100rc0) ∧
    v100rc1.nextPrePhase = .ok none := by decide +kernel
example : gives v100.nextPost v100post0 ∧ gives v100post0.nextPost v100post1 := by decide +kernel
example : gives v100.nextDev v100dev0 ∧ gives v100dev0.nextDev v100dev1 := by decide +kernel
-- `test_with_pre`, `test_with_post`, `test_with_dev`, `test_with_local` (`with_*` are the setters with a value)
example : PyCmp.eq (v100.setPre (T "rc" 1)) v100rc1 ∧ PyCmp.eq (v100.setPost (T "post" 1)) v100post1 := by decide +kernel
example : PyCmp.eq (v100.setDev (T "dev" 1)) v100dev1 ∧ PyCmp.eq (v100.setLocal build1) v100build1 := by decide +kernel
-- `test_without_pre`, `test_without_post`, `test_without_dev`, `test_without_local`
example : PyCmp.eq (v100rc1.withoutPre) v100 ∧ PyCmp.eq (v100post1.withoutPost) v100 := by decide +kernel
example : PyCmp.eq (v100dev1.withoutDev) v100 ∧ PyCmp.eq (v100build1.withoutLocal) v100 := by decide +kernel
-- `test_to_stable`
example : PyCmp.eq (v100.toStable) v100 ∧ PyCmp.eq (v100rc1.toStable) v100 ∧ PyCmp.eq (v100dev1.toStable) v100 ∧
    PyCmp.eq (v100build1.toStable) v100build1 ∧ PyCmp.eq (v100post1.toStable) v100post1 := by decide +kernel
-- `test_normalize`, `test_to_string`, `test_to_short_string`
example : gives v100candidate0rev0dev0.normalize v100rc0post0dev0 := by decide +kernel
example : v1e100full.toStr = "1!1.0.0-alpha.1-post.1-dev.1+build.1".toList := by decide +kernel
example : v1e100full.toShortStr = "1!1.0.0a1.post1.dev1+build.1".toList := by decide +kernel

/-! /repo/tests/test_segments.py -/

example : Epoch.create 1 = ⟨1⟩ := by decide +kernel
example : raises .valueError (Release.create []) := by decide +kernel
example : Release.fromParts [4, 2, 0] = .ok ⟨[4, 2, 0]⟩ ∧ (⟨[6, 9, 0]⟩ : Release).intoParts = [6, 9, 0] := by decide +kernel
example : raises .valueError (Tag.create .pre "invalid".toList) ∧ raises .valueError (Tag.create .post "invalid".toList) ∧
    raises .valueError (Tag.create .dev "invalid".toList) := by decide +kernel
example : raises .valueError (Local.create []) := by decide +kernel
example : Local.create [.str "build".toList, .int 1] = .ok ⟨[.str "build".toList, .int 1]⟩ := by decide +kernel
example : (⟨[.str "build".toList, .int 1]⟩ : Local).intoParts = [.str "build".toList, .int 1] := by decide +kernel

/-! /repo/tests/test_specifiers.py -/

-- `TestSpecifierNever`, `TestSpecifierAlways`
example : Specifier.accepts .never v100 = .ok false ∧ Specifier.accepts .never v200 = .ok false := by decide +kernel
example : Specifier.toStr .never = "0".toList := by decide +kernel
example : Specifier.accepts .always v100 = .ok true ∧ Specifier.accepts .always v200 = .ok true := by decide +kernel
example : Specifier.toStr .always = "*".toList := by decide +kernel
-- `TestSpecifierOne`
example : (One .caret [1, 0, 0]).accepts v100 = .ok true ∧ (One .caret [1, 0, 0]).accepts v200 = .ok false := by
  decide +kernel
example : (One .caret [1, 0, 0]).toStr = "^1.0.0".toList ∧ (One .caret [1, 0, 0]).toShortStr = "^1.0.0".toList := by
  decide +kernel
example : (One .tilde [1, 0, 0]).accepts v100 = .ok true ∧ (One .tilde [1, 0, 0]).accepts (V [1, 1, 0]) = .ok false := by
  decide +kernel
example : (One .tilde [1, 0, 0]).toStr = "~1.0.0".toList ∧ (One .tilde [1, 0, 0]).toShortStr = "~1.0.0".toList := by
  decide +kernel
example : (One .tildeEqual [1, 0, 0]).accepts v100 = .ok true ∧
    (One .tildeEqual [1, 0, 0]).accepts (V [1, 1, 0]) = .ok false := by decide +kernel
example : (One .tildeEqual [1, 0, 0]).toStr = "~= 1.0.0".toList ∧
    (One .tildeEqual [1, 0, 0]).toShortStr = "~=1.0.0".toList := by decide +kernel
example : (One .wildcardEqual [1, 0, 0]).accepts v100 = .ok true ∧
    (One .wildcardEqual [1, 0, 0]).accepts (V [1, 1, 0]) = .ok false := by decide +kernel
example : (One .wildcardEqual [1, 0, 0]).toStr = "= 1.0.*".toList ∧
    (One .wildcardEqual [1, 0, 0]).toShortStr = "=1.0.*".toList := by decide +kernel
example : (One .wildcardEqual [0]).accepts v100 = .ok true ∧ (One .wildcardEqual [0]).accepts v200 = .ok true := by
  decide +kernel
example : raises .valueError (Specifier.mkOne .tildeEqual (V [1])) := by decide +kernel

/-! /repo/tests/test_types.py: the integers of the tests are universally quantified there, by hypothesis. -/

example (n : Int) : PyCmp.eq (.posInf : Ext Int) (.fin n) = false ∧ PyCmp.gt (.posInf : Ext Int) (.fin n) = true ∧
    PyCmp.ge (.posInf : Ext Int) (.fin n) = true ∧ PyCmp.lt (.posInf : Ext Int) (.fin n) = false ∧
    PyCmp.le (.posInf : Ext Int) (.fin n) = false := ⟨rfl, rfl, rfl, rfl, rfl⟩
example (n : Int) : PyCmp.eq (.negInf : Ext Int) (.fin n) = false ∧ PyCmp.lt (.negInf : Ext Int) (.fin n) = true ∧
    PyCmp.le (.negInf : Ext Int) (.fin n) = true ∧ PyCmp.gt (.negInf : Ext Int) (.fin n) = false ∧
    PyCmp.ge (.negInf : Ext Int) (.fin n) = false := ⟨rfl, rfl, rfl, rfl, rfl⟩
example : PyCmp.eq (.posInf : Ext Int) .posInf = true ∧ PyCmp.ge (.posInf : Ext Int) .posInf = true ∧
    PyCmp.le (.posInf : Ext Int) .posInf = true ∧ PyCmp.gt (.posInf : Ext Int) .posInf = false ∧
    PyCmp.lt (.posInf : Ext Int) .posInf = false := by decide +kernel
example : PyCmp.eq (.negInf : Ext Int) .negInf = true ∧ PyCmp.ge (.negInf : Ext Int) .negInf = true ∧
    PyCmp.le (.negInf : Ext Int) .negInf = true ∧ PyCmp.gt (.negInf : Ext Int) .negInf = false ∧
    PyCmp.lt (.negInf : Ext Int) .negInf = false := by decide +kernel
example : (.posInf : Ext Int).isInfinity = true ∧ (.negInf : Ext Int).isInfinity = false ∧
    (.fin 13 : Ext Int).isInfinity = false := by decide +kernel
example : (.posInf : Ext Int).isNegativeInfinity = false ∧ (.negInf : Ext Int).isNegativeInfinity = true ∧
    (.fin 42 : Ext Int).isNegativeInfinity = false := by decide +kernel

/-! /repo/tests/test_versioned.py -/

example : gives (getVersion (fun _ => 0) versionsModule []).1 (V [2, 1, 2]) := by decide +kernel

end Verif.Tests
