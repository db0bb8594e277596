import Verif.Spec.Spelling
import Verif.Model.Strings
/-!
# The numbers in strings and in versions, and how many digits they have
-/

namespace Verif

/-- The numerals in a version string: before `+` the rows of digits, after it the parts that consist of digits only. -/
def numerals (s : PyStr) : List PyStr :=
  ((s.takeWhile (fun c => decide (c ≠ '+'))).splitOnP (fun c => !decide (IsDigit c)) ++
    ((s.dropWhile (fun c => decide (c ≠ '+'))).drop 1).splitOnP (fun c => decide (IsSep c))).filter (fun d => decide (Digits d))

/-- No numeral in the version string has more than `limit` digits; 0 stands for no limit. -/
def FitsText (limit : Nat) (s : PyStr) : Prop := limit = 0 ∨ ∀ d ∈ numerals s, d.length ≤ limit

instance (limit : Nat) (s : PyStr) : Decidable (FitsText limit s) := inferInstanceAs (Decidable (_ ∨ _))

/-- The clauses of a specifier string: what is between commas and pipes, without whitespace. -/
def specClauses (s : PyStr) : List PyStr :=
  (s.filter (fun c => !isSpace c)).splitOnP (fun c => decide (c = ',' ∨ c = '|'))

/-- The numbers in a version. -/
def Version.numbers (v : Version) : List Int :=
  v.epoch.value :: v.release.parts ++ (v.pre.toList ++ v.post.toList ++ v.dev.toList).map (·.value) ++
    (v.local_.toList.flatMap (·.parts)).filterMap (fun p => match p with | .int n => some n | .str _ => none)

/-- No number in the version has more than `limit` digits; 0 stands for no limit. -/
def Version.Fits (limit : Nat) (v : Version) : Prop := limit = 0 ∨ ∀ n ∈ v.numbers, n.natAbs < 10 ^ limit

instance (limit : Nat) (v : Version) : Decidable (v.Fits limit) := inferInstanceAs (Decidable (_ ∨ _))

end Verif
