import Verif.Model.Parsers
/-!
# The limit on conversions between integers and strings, and specifier parsers over any version parser

CPython refuses to convert between `int` and `str` if there are more than `sys.get_int_max_str_digits()` digits (4300
unless changed; 0 stands for no limit): `int(s)` and `str(n)` raise `ValueError`. The sign and underscores are not
counted, leading zeros are. Here the parsers of /repo/versions/parsers.py and the `to_string` methods are written down
once more under such a limit. The functions of /repo/versions/parsers.py that take the version parser from
`self.version_parser` have it as an argument.
-/

namespace Verif

/-- `int(s)` under a limit. -/
def pyIntMax (limit : Nat) (s : PyStr) : Except PyErr Int := do
  let n ← pyInt s
  if limit ≠ 0 ∧ limit < (s.filter isDecimal).length then .error .valueError else .ok n

/-- `str(n)` under a limit. -/
def intStrMax (limit : Nat) (n : Int) : Except PyErr PyStr :=
  if limit ≠ 0 ∧ limit < ((intStr n).filter isDecimal).length then .error .valueError else .ok (intStr n)

/-! ## Parsing segments and versions -/

/-- /repo/versions/segments/epoch.py 34-44. -/
def Epoch.parseMax (limit : Nat) (s : PyStr) : Except PyErr Epoch := do .ok ⟨← pyIntMax limit s⟩

/-- /repo/versions/segments/release.py 413-423. -/
def Release.parseMax (limit : Nat) (s : PyStr) : Except PyErr Release := do
  Release.create (← mapAll (pyIntMax limit) (splitDot s))

/-- `local_part`, /repo/versions/segments/local.py 19-20. -/
def LocalPart.parseMax (limit : Nat) (s : PyStr) : Except PyErr LocalPart :=
  if !s.isEmpty && s.all isDecimal then do .ok (.int (← pyIntMax limit s)) else .ok (.str s)

/-- /repo/versions/segments/local.py 103-113. -/
def Local.parseMax (limit : Nat) (s : PyStr) : Except PyErr Local := do
  Local.create (← mapAll (LocalPart.parseMax limit) (splitSeparators s))

/-- `TagParser.parse`, /repo/versions/parsers.py 75-95. -/
def Tag.parseMax (limit : Nat) (cls : TagClass) (s : PyStr) : Except PyErr Tag :=
  match Pattern.tag.fullmatch s with
  | none => .error .parseTagError
  | some m =>
    match Re.get .phase m with
    | none => .error .internalError
    | some phase =>
      match Re.get .value m with
      | none => Tag.create cls phase
      | some value => do Tag.create cls phase (← pyIntMax limit value)

/-- `VersionParser.parse`, /repo/versions/parsers.py 130-148. -/
def Version.parseMax (limit : Nat) (s : PyStr) : Except PyErr Version :=
  match Pattern.version.fullmatch s with
  | none => .error .parseVersionError
  | some m => do
    let epoch ← match Re.get .epoch m with
      | none => .ok {}
      | some s => Epoch.parseMax limit s
    let release ← match Re.get .release m with
      | none => .ok Release.default
      | some s => Release.parseMax limit s
    let pre ← optionally (Tag.parseMax limit .pre) (Re.get .pre m)
    let implicit ← optionally (fun s => do Tag.defaultPhaseWithValue .post (← pyIntMax limit s)) (Re.get .postImplicit m)
    let post ← match implicit with
      | some t => .ok (some t)
      | none => optionally (Tag.parseMax limit .post) (Re.get .post m)
    let dev ← optionally (Tag.parseMax limit .dev) (Re.get .dev m)
    let local_ ← optionally (Local.parseMax limit) (Re.get .local_ m)
    .ok { epoch, release, pre, post, dev, local_ }

/-! ## Parsing specifiers with any version parser -/

/-- `self.version_parser.parse`, /repo/versions/parsers.py 157-159. -/
abbrev VersionParser := PyStr → Except PyErr Version

namespace Specifier

/-- `try_parse_with`, /repo/versions/parsers.py 195-215. -/
def tryParseWithBy (parser : VersionParser) (pattern : Re) (s : PyStr) : Except PyErr (Option Specifier) :=
  match pattern.fullmatch s with
  | none => .ok none
  | some m => do
    let type ← match Re.get .operator m with
      | none => .error .internalError
      | some operator => OpType.ofValue operator
    let version ← match Re.get .version m with
      | none => .error .internalError
      | some version => parser version
    .ok (some (← mkOne type version))

/-- `try_parse_equal`, /repo/versions/parsers.py 217-238. -/
def tryParseEqualBy (parser : VersionParser) (s : PyStr) : Except PyErr (Option Specifier) :=
  match Pattern.equalSpecification.fullmatch s with
  | none => .ok none
  | some m => do
    let type ← match Re.get .operator m with
      | none => .ok .equal
      | some operator => OpType.ofValue operator
    let version ← match Re.get .version m with
      | none => .error .internalError
      | some version => parser version
    .ok (some (← mkOne type version))

/-- `try_parse_wildcard`, /repo/versions/parsers.py 240-262. -/
def tryParseWildcardBy (parser : VersionParser) (s : PyStr) : Except PyErr (Option Specifier) :=
  match Pattern.wildcardSpecification.fullmatch s with
  | none => .ok none
  | some m => do
    let type ← match Re.get .operator m with
      | none => .ok .wildcardEqual
      | some operator => OpType.ofValue (operator ++ ['*'])
    let version ← match Re.get .version m with
      | none => .error .internalError
      | some version => parser (replaceChar '*' '0' (replaceChar 'x' '*' version))
    .ok (some (← mkOne type version))

/-- `parse_single`, /repo/versions/parsers.py 170-193. -/
def parseSingleBy (parser : VersionParser) : PyStr → Except PyErr Specifier :=
  firstOf [tryParseWildcardBy parser, tryParseWithBy parser Pattern.orderSpecification, tryParseEqualBy parser,
    tryParseWithBy parser Pattern.caretSpecification, tryParseWithBy parser Pattern.tildeSpecification]

/-- `parse_all`, /repo/versions/parsers.py 167-168. -/
def parseAllBy (parser : VersionParser) (s : PyStr) : Except PyErr Specifier := do
  allOf (← mapAll (parseSingleBy parser) (splitComma s))

/-- `parse_any`, /repo/versions/parsers.py 164-165. -/
def parseAnyBy (parser : VersionParser) (s : PyStr) : Except PyErr Specifier := do
  anyOf (← mapAll (parseAllBy parser) (splitPipes s))

/-- `SpecifierParser.parse`, /repo/versions/parsers.py 161-162. -/
def parseBy (parser : VersionParser) (s : PyStr) : Except PyErr Specifier := parseAnyBy parser (clearWhitespace s)

/-- `parse_specifier` under a limit. -/
def parseMax (limit : Nat) : PyStr → Except PyErr Specifier := parseBy (Version.parseMax limit)

end Specifier

/-- `VersionSetParser.parse`, /repo/versions/parsers.py 265-270. -/
def VSet.parseBy (parser : VersionParser) (lim : Nat) (s : PyStr) : Except PyErr VSet := do
  (← Specifier.parseBy parser s).toSet lim

/-- `parse_version_set` under a limit. -/
def VSet.parseMax (limit : Nat) : Nat → PyStr → Except PyErr VSet := VSet.parseBy (Version.parseMax limit)

/-! ## Strings -/

/-- /repo/versions/segments/release.py 425-431. -/
def Release.toStrMax (limit : Nat) (r : Release) : Except PyErr PyStr := do
  .ok (join ['.'] (← mapAll (intStrMax limit) r.parts))

/-- `str(part)`. -/
def LocalPart.toStrMax (limit : Nat) : LocalPart → Except PyErr PyStr
  | .int n => intStrMax limit n
  | .str s => .ok s

/-- /repo/versions/segments/local.py 115-121. -/
def Local.toStrMax (limit : Nat) (l : Local) : Except PyErr PyStr := do
  .ok (join ['.'] (← mapAll (LocalPart.toStrMax limit) l.parts))

/-- /repo/versions/segments/tags.py 164-170. -/
def Tag.toStrMax (limit : Nat) (t : Tag) : Except PyErr PyStr := do .ok (join ['.'] [t.phase, ← intStrMax limit t.value])
/-- /repo/versions/segments/tags.py 172-178. -/
def Tag.toShortStrMax (limit : Nat) (t : Tag) : Except PyErr PyStr := do .ok (join [] [t.short, ← intStrMax limit t.value])

namespace Version

/-- An optional part of `to_string_iterator`. -/
def partMax {α : Type} (prefix_ : PyStr) (f : α → Except PyErr PyStr) : Option α → Except PyErr (List PyStr)
  | none => .ok []
  | some x => do .ok [prefix_, ← f x]

/-- /repo/versions/version.py 123-127. -/
def epochPartMax (limit : Nat) (e : Epoch) : Except PyErr (List PyStr) :=
  if e.truthy then do .ok [← intStrMax limit e.value, ['!']] else .ok []

/-- /repo/versions/version.py 122-153, 186-192. -/
def toStrMax (limit : Nat) (v : Version) : Except PyErr PyStr := do
  let epoch ← epochPartMax limit v.epoch
  let release ← v.release.toStrMax limit
  let pre ← partMax ['-'] (Tag.toStrMax limit) v.pre
  let post ← partMax ['-'] (Tag.toStrMax limit) v.post
  let dev ← partMax ['-'] (Tag.toStrMax limit) v.dev
  let local_ ← partMax ['+'] (Local.toStrMax limit) v.local_
  .ok (join [] (epoch ++ [release] ++ pre ++ post ++ dev ++ local_))

/-- /repo/versions/version.py 155-184, 194-200. -/
def toShortStrMax (limit : Nat) (v : Version) : Except PyErr PyStr := do
  let epoch ← epochPartMax limit v.epoch
  let release ← v.release.toStrMax limit
  let pre ← partMax [] (Tag.toShortStrMax limit) v.pre
  let post ← partMax ['.'] (Tag.toShortStrMax limit) v.post
  let dev ← partMax ['.'] (Tag.toShortStrMax limit) v.dev
  let local_ ← partMax ['+'] (Local.toStrMax limit) v.local_
  .ok (join [] (epoch ++ [release] ++ pre ++ post ++ dev ++ local_))

end Version

/-- /repo/versions/operators.py 954-968. -/
def Operator.toStrMax (limit : Nat) (o : Operator) : Except PyErr PyStr := do
  let s ← o.version.toStrMax limit
  let s := if o.type.isWildcard then wildcardString s else s
  .ok (if o.type.isUnary then join [] [o.type.string, s] else join [' '] [o.type.string, s])

/-- /repo/versions/operators.py 970-982. -/
def Operator.toShortStrMax (limit : Nat) (o : Operator) : Except PyErr PyStr := do
  let s ← o.version.toShortStrMax limit
  let s := if o.type.isWildcard then wildcardString s else s
  .ok (join [] [o.type.string, s])

namespace Specifier
mutual
/-- /repo/versions/specifiers.py 58-59, 72-73, 88-90, 136-139, 182-185. -/
def toStrMax (limit : Nat) : Specifier → Except PyErr PyStr
  | never => .ok "0".toList
  | always => .ok "*".toList
  | one o => o.toStrMax limit
  | any l => do .ok (wrapAround (join " || ".toList (← toStrsMax limit l)))
  | all l => do .ok (wrapAround (join ", ".toList (← toStrsMax limit l)))
def toStrsMax (limit : Nat) : List Specifier → Except PyErr (List PyStr)
  | [] => .ok []
  | s :: l => do
    let a ← toStrMax limit s
    let b ← toStrsMax limit l
    .ok (a :: b)
end

mutual
/-- /repo/versions/specifiers.py 141-144, 187-190, and /repo/versions/string.py 75-76. -/
def toShortStrMax (limit : Nat) : Specifier → Except PyErr PyStr
  | never => .ok "0".toList
  | always => .ok "*".toList
  | one o => o.toShortStrMax limit
  | any l => do .ok (wrapAround (join "||".toList (← toShortStrsMax limit l)))
  | all l => do .ok (wrapAround (join ",".toList (← toShortStrsMax limit l)))
def toShortStrsMax (limit : Nat) : List Specifier → Except PyErr (List PyStr)
  | [] => .ok []
  | s :: l => do
    let a ← toShortStrMax limit s
    let b ← toShortStrsMax limit l
    .ok (a :: b)
end
end Specifier

/-- `VersionRange.to_string`, /repo/versions/version_sets.py 858-886, 916-917; `VersionPoint.to_string`, 998-999. -/
def Item.toStrMax (limit : Nat) : Item → Except PyErr PyStr
  | .point v => v.toStrMax limit
  | .range r => do
    let i := Item.range r
    if i.isEmpty then .ok "0".toList
    else if i.isPoint then do (← i.version).toStrMax limit
    else if i.isUniversal then .ok "*".toList
    else do .ok (join ", ".toList (← mapAll (Operator.toStrMax limit) (← i.boundOperators)))

/-- `VersionRange.to_short_string`, /repo/versions/version_sets.py 888-914, 919-920; `VersionPoint.to_short_string`,
1001-1002. -/
def Item.toShortStrMax (limit : Nat) : Item → Except PyErr PyStr
  | .point v => v.toShortStrMax limit
  | .range r => do
    let i := Item.range r
    if i.isEmpty then .ok "0".toList
    else if i.isPoint then do (← i.version).toShortStrMax limit
    else if i.isUniversal then .ok "*".toList
    else do .ok (join ",".toList (← mapAll (Operator.toShortStrMax limit) (← i.boundOperators)))

/-- `to_string`: /repo/versions/version_sets.py 374-375, 916-917, 998-999, 1178-1186. -/
def VSet.toStrMax (limit lim : Nat) : VSet → Except PyErr PyStr
  | .empty => .ok "0".toList
  | .item i => i.toStrMax limit
  | .union items => do
    match ← excludeVersion lim items with
    | some v => do (← Operator.create .notEqual v).toStrMax limit
    | none => do .ok (join " || ".toList (← mapAll (Item.toStrMax limit) items))

/-- `to_short_string`: /repo/versions/version_sets.py 374-375, 919-920, 1001-1002, 1188-1196. -/
def VSet.toShortStrMax (limit lim : Nat) : VSet → Except PyErr PyStr
  | .empty => .ok "0".toList
  | .item i => i.toShortStrMax limit
  | .union items => do
    match ← excludeVersion lim items with
    | some v => do (← Operator.create .notEqual v).toShortStrMax limit
    | none => do .ok (join "||".toList (← mapAll (Item.toShortStrMax limit) items))

end Verif
