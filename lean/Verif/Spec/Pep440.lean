import Verif.Spec.Spelling
/-!
# The canonical version strings of PEP 440

The regular expression of PEP 440, appendix B ("canonical"), as a predicate on strings, with the local version labels in
the normal form that PEP 440 gives for them (lower case, dots as separators, numbers without leading zeros).
-/

namespace Verif.Pep440

/-- `0|[1-9][0-9]*` -/
def Numeral (s : PyStr) : Prop := s = ['0'] ∨ ∃ c r, s = c :: r ∧ IsDigit c ∧ c ≠ '0' ∧ ∀ x ∈ r, IsDigit x

/-- `[a-z]` -/
def IsLower (c : Char) : Prop := 'a' ≤ c ∧ c ≤ 'z'

/-- One label of a local version: a number, or lower-case letters and digits with at least one letter. -/
def Label (s : PyStr) : Prop := Numeral s ∨ (∀ c ∈ s, IsLower c ∨ IsDigit c) ∧ ∃ c ∈ s, IsLower c

/-- `(L)?` -/
def Opt (L : PyStr → Prop) (s : PyStr) : Prop := s = [] ∨ L s

/-- `L(\.L)*` -/
def Dotted (L : PyStr → Prop) (s : PyStr) : Prop :=
  ∃ (a : PyStr) (l : List PyStr), L a ∧ (∀ x ∈ l, L x) ∧ s = a ++ (l.map ('.' :: ·)).flatten

/-- `(words)(0|[1-9][0-9]*)` -/
def Suffix (words : List String) (s : PyStr) : Prop := ∃ w ∈ words, ∃ n, Numeral n ∧ s = w.toList ++ n

/-- `([1-9][0-9]*!)?(0|[1-9][0-9]*)(\.(0|[1-9][0-9]*))*((a|b|rc)(0|[1-9][0-9]*))?(\.post(0|[1-9][0-9]*))?(\.dev(0|[1-9][0-9]*))?`
followed by an optional `+` and local version. -/
def Canonical (s : PyStr) : Prop := ∃ e r p q d l, s = e ++ r ++ p ++ q ++ d ++ l ∧
  Opt (fun t => ∃ n, Numeral n ∧ n ≠ ['0'] ∧ t = n ++ ['!']) e ∧
  Dotted Numeral r ∧
  Opt (Suffix ["a", "b", "rc"]) p ∧
  Opt (Suffix [".post"]) q ∧
  Opt (Suffix [".dev"]) d ∧
  Opt (fun t => ∃ x, Dotted Label x ∧ t = '+' :: x) l

end Verif.Pep440

namespace Verif

/-- Every letter in the local segment is one of a-z. -/
def Version.LowerLocal (v : Version) : Prop :=
  ∀ l, v.local_ = some l → ∀ s, LocalPart.str s ∈ l.parts → ∀ c ∈ s, Pep440.IsLower c ∨ IsDigit c

end Verif
