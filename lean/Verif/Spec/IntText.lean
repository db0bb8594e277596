import Mathlib.Data.Nat.Digits.Defs
import Verif.Model.UnicodeDigits
import Verif.Spec.Spelling
/-!
# What `int` reads, and the segments of strings
-/

namespace Verif

/-- The number that a string of decimal characters denotes. -/
def DigitTable.number (T : DigitTable) (d : PyStr) : Nat := Nat.ofDigits 10 (d.reverse.map (fun c => (T.decimal c).getD 0))

/-- Whitespace around a number: not the separators U+001C to U+001F. -/
def IntBlank (c : Char) : Prop := isSpace c = true ∧ ¬ (0x1c ≤ c.toNat ∧ c.toNat ≤ 0x1f)

/-- A number in a string: blanks, a sign, groups of decimal characters with underscores between them, blanks. -/
def IntText (T : DigitTable) (s : PyStr) (n : Int) : Prop :=
  ∃ (before sign : PyStr) (groups : List PyStr) (after : PyStr), s = before ++ sign ++ ['_'].intercalate groups ++ after ∧
    (∀ c ∈ before, IntBlank c) ∧ (∀ c ∈ after, IntBlank c) ∧ (sign = [] ∨ sign = ['+'] ∨ sign = ['-']) ∧
    groups ≠ [] ∧ (∀ g ∈ groups, g ≠ [] ∧ ∀ c ∈ g, T.decimal c ≠ none) ∧
    n = (if sign = ['-'] then -1 else 1) * (T.number groups.flatten : Int)

/-- A part of a local segment: all characters have decimal values, or it is not empty and some character is no digit, or it is empty. -/
def LocalText (T : DigitTable) (s : PyStr) (p : LocalPart) : Prop :=
  (s ≠ [] ∧ (∀ c ∈ s, T.decimal c ≠ none) ∧ p = .int (T.number s)) ∨
  ((s = [] ∨ ∃ c ∈ s, T.digit c = false) ∧ p = .str s)

end Verif
