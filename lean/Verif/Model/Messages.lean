import Verif.Model.Parsers
/-!
# The messages of the exceptions

The parsers and constructors once more, with the message of each exception. (Model/Parsers.lean and Model/VersionSets.lean
only say which exception is raised.) The messages are those of `str(exception)`. `get_name` and `get_type_name` of the
library `named` are the names of the classes. The messages of `int` and of `OperatorType`, which are Python's own, are
modelled for strings without quotes, backslashes and characters that are not printable, and up to 200 characters; the
parsers never raise these (`C115_version`, `C115_single`).
-/

namespace Verif

/-- An exception: its class and its message. -/
structure Raised where
  err : PyErr
  message : PyStr
  deriving DecidableEq, Repr

namespace Loud

/-- A result, or an exception with its message. -/
abbrev Result (α : Type) := Except Raised α

/-- The result without the message. -/
def quiet {α : Type} : Result α → Except PyErr α
  | .ok a => .ok a
  | .error r => .error r.err

/-! ## Messages -/

/-- `CAN_NOT_PARSE`, /repo/versions/parsers.py 58. -/
def canNotParse (s name : PyStr) : PyStr := "can not parse `".toList ++ s ++ "` to `".toList ++ name ++ "`".toList
/-- `PHASE_NOT_ALLOWED`, /repo/versions/segments/tags.py 32. -/
def phaseNotAllowed (phase name : PyStr) : PyStr := "phase `".toList ++ phase ++ "` is not allowed in `".toList ++ name ++ "`".toList
/-- `PHASE_IS_NONE`, /repo/versions/parsers.py 68. -/
def phaseIsNone : PyStr := "the tag was matched but the `phase` is `None`".toList
/-- `OPERATOR_IS_NONE`, /repo/versions/parsers.py 153. -/
def operatorIsNone : PyStr := "specification was matched but `operator` is `None`".toList
/-- `VERSION_IS_NONE`, /repo/versions/parsers.py 154. -/
def versionIsNone : PyStr := "specification was matched but `version` is `None`".toList
/-- `EMPTY_RELEASE`, /repo/versions/segments/release.py 25. -/
def emptyRelease : PyStr := "releases can not be empty".toList
/-- `EMPTY_LOCAL`, /repo/versions/segments/local.py 16. -/
def emptyLocal : PyStr := "local can not be empty".toList
/-- `CAN_NOT_USE_TILDE_EQUAL`, /repo/versions/operators.py 108. -/
def canNotUseTildeEqual : PyStr := "`~=` can not be used with with a single version segment".toList
/-- `NO_SPECIFIERS`, /repo/versions/specifiers.py 89. -/
def noSpecifiers : PyStr := "expected at least 2 specifiers, 0 found".toList
/-- `ONE_SPECIFIER`, /repo/versions/specifiers.py 90. -/
def oneSpecifier : PyStr := "expected at least 2 specifiers, 1 found; consider using it directly".toList
/-- `CAN_NOT_INCLUDE_INFINITY`, /repo/versions/version_sets.py 383. -/
def canNotIncludeInfinity : PyStr := "ranges can not contain infinities".toList
/-- `MIN_MAX_CONSTRAINT`, /repo/versions/version_sets.py 380. -/
def minMaxConstraint : PyStr := "version ranges expect `min <= max`, got `min > max`".toList
/-- `RANGE_NOT_POINT`, /repo/versions/version_sets.py 381. -/
def rangeNotPoint : PyStr := "version range is not a point".toList
/-- `NO_ITEMS`, /repo/versions/version_sets.py 1005. -/
def noItems : PyStr := "expected at least 2 items, 0 found".toList
/-- `ONE_ITEM`, /repo/versions/version_sets.py 1006. -/
def oneItem : PyStr := "expected at least 2 items, 1 found; consider using it directly".toList
/-- The message of `int`. -/
def notInt (s : PyStr) : PyStr := "invalid literal for int() with base 10: '".toList ++ s ++ "'".toList
/-- The message of `OperatorType`. -/
def notOperator (s : PyStr) : PyStr := "'".toList ++ s ++ "' is not a valid OperatorType".toList

/-! ## Segments -/

/-- `int(s)`. -/
def int (s : PyStr) : Result Int := (pyInt s).mapError (fun e => ⟨e, notInt s⟩)

/-- `map(f, l)` consumed by `tuple`: stops at the first exception. -/
def mapAll {α β : Type} (f : α → Result β) : List α → Result (List β)
  | [] => .ok []
  | a :: l => do
    let b ← f a
    let bs ← mapAll f l
    .ok (b :: bs)

/-- /repo/versions/segments/epoch.py 34-44. -/
def parseEpoch (s : PyStr) : Result Epoch := do .ok ⟨← int s⟩

/-- /repo/versions/segments/release.py 38-40. -/
def createRelease (parts : List Int) : Result Release := if parts.isEmpty then .error ⟨.valueError, emptyRelease⟩ else .ok ⟨parts⟩

/-- /repo/versions/segments/release.py 413-423. -/
def parseRelease (s : PyStr) : Result Release := do createRelease (← mapAll int (splitDot s))

/-- `local_part`, /repo/versions/segments/local.py 19-20. -/
def parseLocalPart (s : PyStr) : Result LocalPart :=
  if !s.isEmpty && s.all isDecimal then do .ok (.int (← int s)) else .ok (.str s)

/-- /repo/versions/segments/local.py 34-37. -/
def createLocal (parts : List LocalPart) : Result Local := if parts.isEmpty then .error ⟨.valueError, emptyLocal⟩ else .ok ⟨parts⟩

/-- /repo/versions/segments/local.py 103-113. -/
def parseLocal (s : PyStr) : Result Local := do createLocal (← mapAll parseLocalPart (splitSeparators s))

/-- The name of the class, /repo/versions/segments/tags.py 183, 192, 201. -/
def className : TagClass → PyStr
  | .pre => "PreTag".toList
  | .post => "PostTag".toList
  | .dev => "DevTag".toList

/-- The constructor: converter, then validator, /repo/versions/segments/tags.py 47-60. The message shows the phase after
conversion. -/
def createTag (cls : TagClass) (phase : PyStr) (value : Int := 0) : Result Tag :=
  let phase := Tag.convertPhase phase
  if phase ∈ cls.phaseSet then .ok ⟨phase, value⟩ else .error ⟨.valueError, phaseNotAllowed phase (className cls)⟩

/-- `TagParser.parse`, /repo/versions/parsers.py 75-95. -/
def parseTag (cls : TagClass) (s : PyStr) : Result Tag :=
  match Pattern.tag.fullmatch s with
  | none => .error ⟨.parseTagError, canNotParse s (className cls)⟩
  | some m =>
    match Re.get .phase m with
    | none => .error ⟨.internalError, phaseIsNone⟩
    | some phase =>
      match Re.get .value m with
      | none => createTag cls phase
      | some value => do createTag cls phase (← int value)

/-! ## Versions -/

/-- `None if string is None else parse(string)`, /repo/versions/parsers.py 102-128. -/
def optionally {α : Type} (parse : PyStr → Result α) : Option PyStr → Result (Option α)
  | none => .ok none
  | some s => do .ok (some (← parse s))

/-- `VersionParser.parse`, /repo/versions/parsers.py 130-148, for the class `Version`. -/
def parseVersion (s : PyStr) : Result Version :=
  match Pattern.version.fullmatch s with
  | none => .error ⟨.parseVersionError, canNotParse s "Version".toList⟩
  | some m => do
    let epoch ← match Re.get .epoch m with
      | none => .ok {}
      | some s => parseEpoch s
    let release ← match Re.get .release m with
      | none => .ok Release.default
      | some s => parseRelease s
    let pre ← optionally (parseTag .pre) (Re.get .pre m)
    let implicit ← optionally (fun s => do createTag .post (TagClass.defaultPhase .post) (← int s)) (Re.get .postImplicit m)
    let post ← match implicit with
      | some t => .ok (some t)
      | none => optionally (parseTag .post) (Re.get .post m)
    let dev ← optionally (parseTag .dev) (Re.get .dev m)
    let local_ ← optionally parseLocal (Re.get .local_ m)
    .ok { epoch, release, pre, post, dev, local_ }

/-! ## Specifiers -/

/-- `OperatorType(value)`. -/
def operatorType (s : PyStr) : Result OpType := (OpType.ofValue s).mapError (fun e => ⟨e, notOperator s⟩)

/-- The constructor of operators, /repo/versions/operators.py 815-820. -/
def createOperator (type : OpType) (version : Version) : Result Operator :=
  if type = .tildeEqual ∧ version.lastIndex = 0 then .error ⟨.valueError, canNotUseTildeEqual⟩ else .ok ⟨type, version⟩

/-- `SpecifierOne(operator_type, version)`. -/
def mkOne (type : OpType) (version : Version) : Result Specifier := do .ok (.one (← createOperator type version))

/-- `try_parse_with`, /repo/versions/parsers.py 195-215. -/
def tryParseWith (pattern : Re) (s : PyStr) : Result (Option Specifier) :=
  match pattern.fullmatch s with
  | none => .ok none
  | some m => do
    let type ← match Re.get .operator m with
      | none => .error ⟨.internalError, operatorIsNone⟩
      | some operator => operatorType operator
    let version ← match Re.get .version m with
      | none => .error ⟨.internalError, versionIsNone⟩
      | some version => parseVersion version
    .ok (some (← mkOne type version))

/-- `try_parse_equal`, /repo/versions/parsers.py 217-238. -/
def tryParseEqual (s : PyStr) : Result (Option Specifier) :=
  match Pattern.equalSpecification.fullmatch s with
  | none => .ok none
  | some m => do
    let type ← match Re.get .operator m with
      | none => .ok .equal
      | some operator => operatorType operator
    let version ← match Re.get .version m with
      | none => .error ⟨.internalError, versionIsNone⟩
      | some version => parseVersion version
    .ok (some (← mkOne type version))

/-- `try_parse_wildcard`, /repo/versions/parsers.py 240-262. -/
def tryParseWildcard (s : PyStr) : Result (Option Specifier) :=
  match Pattern.wildcardSpecification.fullmatch s with
  | none => .ok none
  | some m => do
    let type ← match Re.get .operator m with
      | none => .ok .wildcardEqual
      | some operator => operatorType (operator ++ ['*'])
    let version ← match Re.get .version m with
      | none => .error ⟨.internalError, versionIsNone⟩
      | some version => parseVersion (replaceChar '*' '0' (replaceChar 'x' '*' version))
    .ok (some (← mkOne type version))

/-- The loop of `parse_single`: the first specifier found. -/
def firstOf : List (PyStr → Result (Option Specifier)) → PyStr → Result Specifier
  | [], s => .error ⟨.parseSpecificationError, canNotParse s "specification".toList⟩
  | f :: fs, s => do
    match ← f s with
    | some specifier => .ok specifier
    | none => firstOf fs s

/-- `parse_single`, /repo/versions/parsers.py 170-184. -/
def parseSingle : PyStr → Result Specifier :=
  firstOf [tryParseWildcard, tryParseWith Pattern.orderSpecification, tryParseEqual, tryParseWith Pattern.caretSpecification,
    tryParseWith Pattern.tildeSpecification]

/-- /repo/versions/specifiers.py 93-98. -/
def checkSpecifiers (specifiers : List Specifier) : Result Unit :=
  match specifiers with
  | [] => .error ⟨.typeError, noSpecifiers⟩
  | [_] => .error ⟨.typeError, oneSpecifier⟩
  | _ => .ok ()

/-- The constructor of `SpecifierAny`, /repo/versions/specifiers.py 109-113. -/
def mkAny (specifiers : List Specifier) : Result Specifier := do
  checkSpecifiers specifiers
  .ok (.any specifiers)

/-- The constructor of `SpecifierAll`, /repo/versions/specifiers.py 155-159. -/
def mkAll (specifiers : List Specifier) : Result Specifier := do
  checkSpecifiers specifiers
  .ok (.all specifiers)

/-- `SpecifierAny.of_iterable`, /repo/versions/specifiers.py 115-131. -/
def anyOf (specifiers : List Specifier) : Result Specifier :=
  match specifiers with
  | [] => .ok .never
  | [s] => .ok s
  | _ => mkAny specifiers

/-- `SpecifierAll.of_iterable`, /repo/versions/specifiers.py 161-177. -/
def allOf (specifiers : List Specifier) : Result Specifier :=
  match specifiers with
  | [] => .ok .always
  | [s] => .ok s
  | _ => mkAll specifiers

/-- `parse_all`, /repo/versions/parsers.py 167-168. -/
def parseAll (s : PyStr) : Result Specifier := do allOf (← mapAll parseSingle (splitComma s))

/-- `parse_any`, /repo/versions/parsers.py 164-165. -/
def parseAny (s : PyStr) : Result Specifier := do anyOf (← mapAll parseAll (splitPipes s))

/-- `SpecifierParser.parse`, /repo/versions/parsers.py 161-162. -/
def parseSpecifier (s : PyStr) : Result Specifier := parseAny (clearWhitespace s)

/-! ## Sets -/

/-- The constructor of `VersionRange`, /repo/versions/version_sets.py 399-407. -/
def mkRange (min max : Option Version) (includeMin includeMax : Bool) : Result Item :=
  let i := Item.range ⟨min, max, includeMin, includeMax⟩
  if min.isNone && includeMin then .error ⟨.valueError, canNotIncludeInfinity⟩
  else if max.isNone && includeMax then .error ⟨.valueError, canNotIncludeInfinity⟩
  else if PyCmp.gt i.comparableMin i.comparableMax then .error ⟨.valueError, minMaxConstraint⟩
  else .ok i

/-- `version_unchecked`, /repo/versions/version_sets.py 601-608. -/
def versionUnchecked (i : Item) : Result Version :=
  match i.min with
  | some v => .ok v
  | none => match i.max with
    | some v => .ok v
    | none => .error ⟨.valueError, rangeNotPoint⟩

/-- `version`, /repo/versions/version_sets.py 594-599, 930. -/
def version : Item → Result Version
  | .range r => if (Item.range r).isPoint then versionUnchecked (.range r) else .error ⟨.valueError, rangeNotPoint⟩
  | .point v => .ok v

/-- The constructor of `VersionUnion`, /repo/versions/version_sets.py 1009-1014, 1026-1038. -/
def mkUnion (items : List Item) : Result VSet :=
  if items.isEmpty then .error ⟨.valueError, noItems⟩
  else if items.length == 1 then .error ⟨.valueError, oneItem⟩
  else .ok (.union items)

end Loud
end Verif
