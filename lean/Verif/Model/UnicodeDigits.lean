import Verif.Model.DigitLimit
/-!
# Parsing with the digits of Unicode

`int(s)` reads every character that has a decimal value, and `str.isdigit` knows still more characters (such as `²`).
Which ones depends on the version of Unicode in the interpreter, so they are given by a table here, of which only what
every version of Unicode says is assumed. The parsers of the segments and of versions are written down once more over
such a table. The patterns are not affected: they have the class `[0-9]`.
-/

namespace Verif

/-- What `int` and `str.isdigit` know about characters. -/
structure DigitTable where
  /-- `Py_UNICODE_TODECIMAL`. -/
  decimal : Char → Option Nat
  /-- `str.isdigit` on one character. -/
  digit : Char → Bool
  /-- In ASCII there are the usual digits only. -/
  ascii : ∀ c, c.toNat < 128 → decimal c = (if isDecimal c then some (c.toNat - 48) else none)
  ascii_digit : ∀ c, c.toNat < 128 → digit c = isDecimal c
  /-- Characters with a decimal value are digits. -/
  decimal_digit : ∀ c, digit c = false → decimal c = none
  /-- Whitespace and the letters that the patterns accept are no digits. -/
  space : ∀ c, isSpace c = true → digit c = false
  letter : ∀ c ∈ ['\u0130', '\u0131', '\u017f', '\u212a'], digit c = false

/-- `int(s)`: surrounding whitespace, a sign, and single underscores between digits are allowed. -/
def pyIntIn (T : DigitTable) (s : PyStr) : Except PyErr Int :=
  let t := signAndDigits (stripBy intSpace s)
  let groups := splitAt (· = '_') t.2
  if groups.all (fun d => !d.isEmpty && d.all (fun c => (T.decimal c).isSome)) then
    .ok (t.1 * groups.flatten.foldl (fun n c => 10 * n + ((T.decimal c).getD 0 : Int)) 0)
  else .error .valueError

/-- /repo/versions/segments/epoch.py 34-44. -/
def Epoch.parseIn (T : DigitTable) (s : PyStr) : Except PyErr Epoch := do .ok ⟨← pyIntIn T s⟩

/-- /repo/versions/segments/release.py 413-423. -/
def Release.parseIn (T : DigitTable) (s : PyStr) : Except PyErr Release := do
  Release.create (← mapAll (pyIntIn T) (splitDot s))

/-- `local_part`, /repo/versions/segments/local.py 19-20; `check_int` is `str.isdigit`, /repo/versions/string.py 89. -/
def LocalPart.parseIn (T : DigitTable) (s : PyStr) : Except PyErr LocalPart :=
  if !s.isEmpty && s.all T.digit then do .ok (.int (← pyIntIn T s)) else .ok (.str s)

/-- /repo/versions/segments/local.py 103-113. -/
def Local.parseIn (T : DigitTable) (s : PyStr) : Except PyErr Local := do
  Local.create (← mapAll (LocalPart.parseIn T) (splitSeparators s))

/-- `TagParser.parse`, /repo/versions/parsers.py 75-95. -/
def Tag.parseIn (T : DigitTable) (cls : TagClass) (s : PyStr) : Except PyErr Tag :=
  match Pattern.tag.fullmatch s with
  | none => .error .parseTagError
  | some m =>
    match Re.get .phase m with
    | none => .error .internalError
    | some phase =>
      match Re.get .value m with
      | none => Tag.create cls phase
      | some value => do Tag.create cls phase (← pyIntIn T value)

/-- `VersionParser.parse`, /repo/versions/parsers.py 130-148. -/
def Version.parseIn (T : DigitTable) (s : PyStr) : Except PyErr Version :=
  match Pattern.version.fullmatch s with
  | none => .error .parseVersionError
  | some m => do
    let epoch ← match Re.get .epoch m with
      | none => .ok {}
      | some s => Epoch.parseIn T s
    let release ← match Re.get .release m with
      | none => .ok Release.default
      | some s => Release.parseIn T s
    let pre ← optionally (Tag.parseIn T .pre) (Re.get .pre m)
    let implicit ← optionally (fun s => do Tag.defaultPhaseWithValue .post (← pyIntIn T s)) (Re.get .postImplicit m)
    let post ← match implicit with
      | some t => .ok (some t)
      | none => optionally (Tag.parseIn T .post) (Re.get .post m)
    let dev ← optionally (Tag.parseIn T .dev) (Re.get .dev m)
    let local_ ← optionally (Local.parseIn T) (Re.get .local_ m)
    .ok { epoch, release, pre, post, dev, local_ }

/-- `parse_specifier`. -/
def Specifier.parseIn (T : DigitTable) : PyStr → Except PyErr Specifier := Specifier.parseBy (Version.parseIn T)

/-- `parse_version_set`. -/
def VSet.parseIn (T : DigitTable) : Nat → PyStr → Except PyErr VSet := VSet.parseBy (Version.parseIn T)

end Verif
