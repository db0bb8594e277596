import Verif.Model.Specifiers
/-!
# Strings: /repo/versions/string.py and all `to_string`/`to_short_string` methods

`str(n)` for Python integers has no limit on the number of digits here (CPython refuses to convert integers of more than
4300 digits by default).
-/

namespace Verif

/-! ## Functions on strings -/

/-- Decimal digits, least significant first; `fuel` bounds their number. -/
def decimalRev : (fuel : Nat) → Nat → PyStr
  | 0, _ => []
  | fuel + 1, n => Nat.digitChar (n % 10) :: if n / 10 = 0 then [] else decimalRev fuel (n / 10)

/-- `str(n)` for a non-negative integer. -/
def natStr (n : Nat) : PyStr := (decimalRev (n + 1) n).reverse

/-- `str(n)` for an integer. -/
def intStr : Int → PyStr
  | .ofNat n => natStr n
  | .negSucc n => '-' :: natStr (n + 1)

/-- `str.isdigit` on one character. (On characters outside ASCII `str.isdigit` is true for more; strings with such
characters do not reach it from the parsers, see `C40`.) -/
def isDecimal (c : Char) : Bool := decide ('0' ≤ c ∧ c ≤ '9')

/-- `sep.join(strings)`. -/
def join (sep : PyStr) (strings : List PyStr) : PyStr := sep.intercalate strings

/-- Split at every character with `p`; `s.split(c)` for a one-character string `c`. -/
def splitAt (p : Char → Bool) : PyStr → List PyStr
  | [] => [[]]
  | c :: s =>
    if p c then [] :: splitAt p s
    else match splitAt p s with
      | [] => [[c]]
      | w :: ws => (c :: w) :: ws

/-- `str.isspace` on one character: what `strip()` and `split()` remove. -/
def isSpace (c : Char) : Bool :=
  let n := c.toNat
  (decide (9 ≤ n) && decide (n ≤ 13)) || (decide (28 ≤ n) && decide (n ≤ 32)) || decide (n = 0x85) || decide (n = 0xa0)
    || decide (n = 0x1680) || (decide (0x2000 ≤ n) && decide (n ≤ 0x200a)) || decide (n = 0x2028) || decide (n = 0x2029)
    || decide (n = 0x202f) || decide (n = 0x205f) || decide (n = 0x3000)

/-- Remove characters with `p` from the end. -/
def rstripBy (p : Char → Bool) (s : PyStr) : PyStr := (s.reverse.dropWhile p).reverse
/-- Remove characters with `p` from both ends. -/
def stripBy (p : Char → Bool) (s : PyStr) : PyStr := rstripBy p (s.dropWhile p)

/-- `s.split()`: the maximal non-empty strings without whitespace. -/
def splitSpace (s : PyStr) : List PyStr := (splitAt isSpace s).filter (fun w => !w.isEmpty)

/-- /repo/versions/string.py 122-123. -/
def clearWhitespace (s : PyStr) : PyStr := join [] (splitSpace (stripBy isSpace s))

/-- `s.replace("||", "|")`. -/
def replacePipes : PyStr → PyStr
  | '|' :: '|' :: s => '|' :: replacePipes s
  | c :: s => c :: replacePipes s
  | [] => []

/-- /repo/versions/string.py 160-161. -/
def splitComma (s : PyStr) : List PyStr := splitAt (· = ',') s
/-- /repo/versions/string.py 164-165. -/
def splitDot (s : PyStr) : List PyStr := splitAt (· = '.') s
/-- /repo/versions/string.py 168-170. -/
def splitPipes (s : PyStr) : List PyStr := splitAt (· = '|') (replacePipes s)
/-- /repo/versions/string.py 145-157 with `SEPARATORS`, /repo/versions/constants.py 123. -/
def splitSeparators (s : PyStr) : List PyStr :=
  splitAt (· = '.') (s.map (fun c => if c = '-' ∨ c = '_' then '.' else c))

/-- `s.replace(a, b)` for one-character strings. -/
def replaceChar (a b : Char) (s : PyStr) : PyStr := s.map (fun c => if c = a then b else c)

/-- /repo/versions/string.py 129-136 with the default `BRACKETS`. -/
def wrapAround (s : PyStr) : PyStr := '(' :: s ++ [')']

/-! ## Segments -/

/-- /repo/versions/segments/epoch.py 46-52; `to_short_string` is the same (/repo/versions/string.py 75-76). -/
def Epoch.toStr (e : Epoch) : PyStr := intStr e.value
/-- /repo/versions/segments/release.py 425-431; `to_short_string` is the same. -/
def Release.toStr (r : Release) : PyStr := join ['.'] (r.parts.map intStr)
/-- `str(part)`. -/
def LocalPart.toStr : LocalPart → PyStr
  | .int n => intStr n
  | .str s => s
/-- /repo/versions/segments/local.py 115-121; `to_short_string` is the same. -/
def Local.toStr (l : Local) : PyStr := join ['.'] (l.parts.map LocalPart.toStr)
/-- /repo/versions/segments/tags.py 164-170. -/
def Tag.toStr (t : Tag) : PyStr := join ['.'] [t.phase, intStr t.value]
/-- /repo/versions/segments/tags.py 172-178. -/
def Tag.toShortStr (t : Tag) : PyStr := join [] [t.short, intStr t.value]

/-! ## Versions -/

namespace Version

/-- An optional part of `to_string_iterator`. -/
def part {α : Type} (prefix_ : PyStr) (f : α → PyStr) : Option α → List PyStr
  | none => []
  | some x => [prefix_, f x]

/-- The part of the epoch in `to_string_iterator`, /repo/versions/version.py 123-127. -/
def epochPart (e : Epoch) : List PyStr := if e.truthy then [e.toStr, ['!']] else []

/-- /repo/versions/version.py 122-153, 186-192. -/
def toStr (v : Version) : PyStr :=
  join [] (epochPart v.epoch ++ [v.release.toStr] ++ part ['-'] Tag.toStr v.pre ++ part ['-'] Tag.toStr v.post
    ++ part ['-'] Tag.toStr v.dev ++ part ['+'] Local.toStr v.local_)

/-- /repo/versions/version.py 155-184, 194-200 (the pre tag has no prefix). -/
def toShortStr (v : Version) : PyStr :=
  join [] (epochPart v.epoch ++ [v.release.toStr] ++ part [] Tag.toShortStr v.pre ++ part ['.'] Tag.toShortStr v.post
    ++ part ['.'] Tag.toShortStr v.dev ++ part ['+'] Local.toStr v.local_)

/-- /repo/versions/version.py 202-220. -/
def toPep440Str (v : Version) : Except PyErr PyStr := do .ok (← v.normalize).toShortStr

end Version

/-! ## Operators -/

/-- The values of `OperatorType`, /repo/versions/operators.py 664-697, /repo/versions/constants.py 126-142. -/
def OpType.value : OpType → PyStr
  | .tildeEqual => "~=".toList
  | .doubleEqual => "==".toList
  | .notEqual => "!=".toList
  | .less => "<".toList
  | .lessOrEqual => "<=".toList
  | .greater => ">".toList
  | .greaterOrEqual => ">=".toList
  | .caret => "^".toList
  | .equal => "=".toList
  | .tilde => "~".toList
  | .wildcardDoubleEqual => "==*".toList
  | .wildcardEqual => "=*".toList
  | .wildcardNotEqual => "!=*".toList

/-- All members of `OperatorType`. -/
def OpType.members : List OpType :=
  [.tildeEqual, .doubleEqual, .notEqual, .less, .lessOrEqual, .greater, .greaterOrEqual, .caret, .equal, .tilde,
    .wildcardDoubleEqual, .wildcardEqual, .wildcardNotEqual]

/-- `OperatorType(value)`. -/
def OpType.ofValue (s : PyStr) : Except PyErr OpType :=
  match OpType.members.find? (fun t => decide (t.value = s)) with
  | some t => .ok t
  | none => .error .valueError

/-- `wildcard_string`, /repo/versions/operators.py 235-236. -/
def wildcardString (s : PyStr) : PyStr := join [] [rstripBy isDecimal s, ['*']]
/-- `wildcard_type`, /repo/versions/operators.py 239-240, and `OperatorType.string`, 771-773. -/
def OpType.string (t : OpType) : PyStr := stripBy (· = '*') t.value

/-- /repo/versions/operators.py 954-968. -/
def Operator.toStr (o : Operator) : PyStr :=
  let s := o.version.toStr
  let s := if o.type.isWildcard then wildcardString s else s
  if o.type.isUnary then join [] [o.type.string, s] else join [' '] [o.type.string, s]

/-- /repo/versions/operators.py 970-982. -/
def Operator.toShortStr (o : Operator) : PyStr :=
  let s := o.version.toShortStr
  let s := if o.type.isWildcard then wildcardString s else s
  join [] [o.type.string, s]

/-! ## Specifiers -/

namespace Specifier
mutual
/-- /repo/versions/specifiers.py 58-59, 72-73, 88-90, 136-139, 182-185. -/
def toStr : Specifier → PyStr
  | never => "0".toList
  | always => "*".toList
  | one o => o.toStr
  | any l => wrapAround (join " || ".toList (toStrs l))
  | all l => wrapAround (join ", ".toList (toStrs l))
def toStrs : List Specifier → List PyStr
  | [] => []
  | s :: l => toStr s :: toStrs l
end

mutual
/-- /repo/versions/specifiers.py 141-144, 187-190, and /repo/versions/string.py 75-76. -/
def toShortStr : Specifier → PyStr
  | never => "0".toList
  | always => "*".toList
  | one o => o.toShortStr
  | any l => wrapAround (join "||".toList (toShortStrs l))
  | all l => wrapAround (join ",".toList (toShortStrs l))
def toShortStrs : List Specifier → List PyStr
  | [] => []
  | s :: l => toShortStr s :: toShortStrs l
end
end Specifier

/-! ## Version sets -/

namespace Item

/-- The operators of `to_string_iterator`, /repo/versions/version_sets.py 872-886, 900-914. -/
def boundOperators (i : Item) : Except PyErr (List Operator) := do
  let lo ← match i.min with
    | none => .ok []
    | some v => do .ok [← Operator.create (if i.includeMin then .greaterOrEqual else .greater) v]
  let hi ← match i.max with
    | none => .ok []
    | some v => do .ok [← Operator.create (if i.includeMax then .lessOrEqual else .less) v]
  .ok (lo ++ hi)

/-- `VersionRange.to_string`, /repo/versions/version_sets.py 858-886, 916-917; `VersionPoint.to_string`, 998-999. -/
def toStr : Item → Except PyErr PyStr
  | point v => .ok v.toStr
  | range r => do
    let i := range r
    if i.isEmpty then .ok "0".toList
    else if i.isPoint then do .ok (← i.version).toStr
    else if i.isUniversal then .ok "*".toList
    else do .ok (join ", ".toList ((← i.boundOperators).map Operator.toStr))

/-- `VersionRange.to_short_string`, /repo/versions/version_sets.py 888-914, 919-920; `VersionPoint.to_short_string`,
1001-1002. -/
def toShortStr : Item → Except PyErr PyStr
  | point v => .ok v.toShortStr
  | range r => do
    let i := range r
    if i.isEmpty then .ok "0".toList
    else if i.isPoint then do .ok (← i.version).toShortStr
    else if i.isUniversal then .ok "*".toList
    else do .ok (join ",".toList ((← i.boundOperators).map Operator.toShortStr))

end Item

namespace VSet

/-- `to_string`: /repo/versions/version_sets.py 374-375, 916-917, 998-999, 1178-1186. -/
def toStr (lim : Nat) : VSet → Except PyErr PyStr
  | empty => .ok "0".toList
  | item i => i.toStr
  | union items => do
    match ← excludeVersion lim items with
    | some v => do .ok (← Operator.create .notEqual v).toStr
    | none => do .ok (join " || ".toList (← items.mapM Item.toStr))

/-- `to_short_string`: /repo/versions/version_sets.py 374-375, 919-920, 1001-1002, 1188-1196. -/
def toShortStr (lim : Nat) : VSet → Except PyErr PyStr
  | empty => .ok "0".toList
  | item i => i.toShortStr
  | union items => do
    match ← excludeVersion lim items with
    | some v => do .ok (← Operator.create .notEqual v).toShortStr
    | none => do .ok (join "||".toList (← items.mapM Item.toShortStr))

end VSet
end Verif
