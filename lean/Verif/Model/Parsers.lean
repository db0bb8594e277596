import Verif.Model.Strings
import Verif.Model.Regex
/-!
# Parsers: /repo/versions/parsers.py, /repo/versions/functions.py, and the `from_string` methods of the segments

The functions of /repo/versions/functions.py are modelled here without their caches. As for `str(n)`, there is no limit
on the number of digits in `int(s)` (see Model/DigitLimit). Digits other than ASCII: see Model/UnicodeDigits.
-/

namespace Verif

/-- The sign of a number and what follows it. -/
def signAndDigits : PyStr → Int × PyStr
  | '+' :: s => (1, s)
  | '-' :: s => (-1, s)
  | s => (1, s)

/-- The whitespace that `int` skips: `str.isspace` without the separators U+001C to U+001F. -/
def intSpace (c : Char) : Bool := isSpace c && !(decide (28 ≤ c.toNat) && decide (c.toNat ≤ 31))

/-- `int(s)`: surrounding whitespace, a sign, and single underscores between digits are allowed. Only the ASCII digits are
modelled. (The parsers only pass strings of ASCII digits; `Epoch.from_string` and `Release.from_string` pass anything.) -/
def pyInt (s : PyStr) : Except PyErr Int :=
  let t := signAndDigits (stripBy intSpace s)
  let groups := splitAt (· = '_') t.2
  if groups.all (fun d => !d.isEmpty && d.all isDecimal) then
    .ok (t.1 * groups.flatten.foldl (fun n c => 10 * n + ((c.toNat : Int) - 48)) 0)
  else .error .valueError

/-- `map(f, l)` consumed by `tuple`: stops at the first exception. -/
def mapAll {α β : Type} (f : α → Except PyErr β) : List α → Except PyErr (List β)
  | [] => .ok []
  | a :: l => do
    let b ← f a
    let bs ← mapAll f l
    .ok (b :: bs)

/-- /repo/versions/segments/epoch.py 34-44. -/
def Epoch.parse (s : PyStr) : Except PyErr Epoch := do .ok ⟨← pyInt s⟩

/-- /repo/versions/segments/release.py 413-423. -/
def Release.parse (s : PyStr) : Except PyErr Release := do Release.create (← mapAll pyInt (splitDot s))

/-- `local_part`, /repo/versions/segments/local.py 19-20. -/
def LocalPart.parse (s : PyStr) : Except PyErr LocalPart :=
  if !s.isEmpty && s.all isDecimal then do .ok (.int (← pyInt s)) else .ok (.str s)

/-- /repo/versions/segments/local.py 103-113. -/
def Local.parse (s : PyStr) : Except PyErr Local := do Local.create (← mapAll LocalPart.parse (splitSeparators s))

/-- `TagParser.parse`, /repo/versions/parsers.py 75-95. -/
def Tag.parse (cls : TagClass) (s : PyStr) : Except PyErr Tag :=
  match Pattern.tag.fullmatch s with
  | none => .error .parseTagError
  | some m =>
    match Re.get .phase m with
    | none => .error .internalError
    | some phase =>
      match Re.get .value m with
      | none => Tag.create cls phase
      | some value => do Tag.create cls phase (← pyInt value)

/-- `None if string is None else parse(string)`, /repo/versions/parsers.py 102-128. -/
def optionally {α : Type} (parse : PyStr → Except PyErr α) : Option PyStr → Except PyErr (Option α)
  | none => .ok none
  | some s => do .ok (some (← parse s))

/-- `VersionParser.parse`, /repo/versions/parsers.py 130-148; `parse_version`, /repo/versions/functions.py 28-39. (Tags are
truthy.) -/
def Version.parse (s : PyStr) : Except PyErr Version :=
  match Pattern.version.fullmatch s with
  | none => .error .parseVersionError
  | some m => do
    let epoch ← match Re.get .epoch m with
      | none => .ok {}
      | some s => Epoch.parse s
    let release ← match Re.get .release m with
      | none => .ok Release.default
      | some s => Release.parse s
    let pre ← optionally (Tag.parse .pre) (Re.get .pre m)
    let implicit ← optionally (fun s => do Tag.defaultPhaseWithValue .post (← pyInt s)) (Re.get .postImplicit m)
    let post ← match implicit with
      | some t => .ok (some t)
      | none => optionally (Tag.parse .post) (Re.get .post m)
    let dev ← optionally (Tag.parse .dev) (Re.get .dev m)
    let local_ ← optionally Local.parse (Re.get .local_ m)
    .ok { epoch, release, pre, post, dev, local_ }

namespace Specifier

/-- `SpecifierOne(operator_type, version)`. -/
def mkOne (type : OpType) (version : Version) : Except PyErr Specifier := do .ok (one (← Operator.create type version))

/-- `try_parse_with`, /repo/versions/parsers.py 195-215. -/
def tryParseWith (pattern : Re) (s : PyStr) : Except PyErr (Option Specifier) :=
  match pattern.fullmatch s with
  | none => .ok none
  | some m => do
    let type ← match Re.get .operator m with
      | none => .error .internalError
      | some operator => OpType.ofValue operator
    let version ← match Re.get .version m with
      | none => .error .internalError
      | some version => Version.parse version
    .ok (some (← mkOne type version))

/-- `try_parse_caret`, `try_parse_tilde`, `try_parse_order`, /repo/versions/parsers.py 186-193. -/
def tryParseCaret : PyStr → Except PyErr (Option Specifier) := tryParseWith Pattern.caretSpecification
def tryParseTilde : PyStr → Except PyErr (Option Specifier) := tryParseWith Pattern.tildeSpecification
def tryParseOrder : PyStr → Except PyErr (Option Specifier) := tryParseWith Pattern.orderSpecification

/-- `try_parse_equal`, /repo/versions/parsers.py 217-238. -/
def tryParseEqual (s : PyStr) : Except PyErr (Option Specifier) :=
  match Pattern.equalSpecification.fullmatch s with
  | none => .ok none
  | some m => do
    let type ← match Re.get .operator m with
      | none => .ok .equal
      | some operator => OpType.ofValue operator
    let version ← match Re.get .version m with
      | none => .error .internalError
      | some version => Version.parse version
    .ok (some (← mkOne type version))

/-- `try_parse_wildcard`, /repo/versions/parsers.py 240-262. -/
def tryParseWildcard (s : PyStr) : Except PyErr (Option Specifier) :=
  match Pattern.wildcardSpecification.fullmatch s with
  | none => .ok none
  | some m => do
    let type ← match Re.get .operator m with
      | none => .ok .wildcardEqual
      | some operator => OpType.ofValue (operator ++ ['*'])
    let version ← match Re.get .version m with
      | none => .error .internalError
      | some version => Version.parse (replaceChar '*' '0' (replaceChar 'x' '*' version))
    .ok (some (← mkOne type version))

/-- The loop of `parse_single`: the first specifier found. -/
def firstOf : List (PyStr → Except PyErr (Option Specifier)) → PyStr → Except PyErr Specifier
  | [], _ => .error .parseSpecificationError
  | f :: fs, s => do
    match ← f s with
    | some specifier => .ok specifier
    | none => firstOf fs s

/-- `parse_single`, /repo/versions/parsers.py 170-184. (Specifiers are truthy.) -/
def parseSingle : PyStr → Except PyErr Specifier :=
  firstOf [tryParseWildcard, tryParseOrder, tryParseEqual, tryParseCaret, tryParseTilde]

/-- `parse_all`, /repo/versions/parsers.py 167-168. -/
def parseAll (s : PyStr) : Except PyErr Specifier := do allOf (← mapAll parseSingle (splitComma s))

/-- `parse_any`, /repo/versions/parsers.py 164-165. -/
def parseAny (s : PyStr) : Except PyErr Specifier := do anyOf (← mapAll parseAll (splitPipes s))

/-- `SpecifierParser.parse`, /repo/versions/parsers.py 161-162; `parse_specifier`, /repo/versions/functions.py 42-53. -/
def parse (s : PyStr) : Except PyErr Specifier := parseAny (clearWhitespace s)

end Specifier

/-- `VersionSetParser.parse`, /repo/versions/parsers.py 265-270; `parse_version_set`, /repo/versions/functions.py 56-67. -/
def VSet.parse (lim : Nat) (s : PyStr) : Except PyErr VSet := do (← Specifier.parse s).toSet lim

end Verif
