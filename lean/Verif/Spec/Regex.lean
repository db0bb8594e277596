import Verif.Model.Regex
/-!
# What a regular expression matches

The usual declarative reading, without any order of alternatives: `r.Matches w caps` holds if `r` can match exactly `w`
while capturing `caps` (latest first).
-/

namespace Verif.Re

def Matches : Re → PyStr → Caps → Prop
  | chr p, w, caps => ∃ c, w = [c] ∧ p c = true ∧ caps = []
  | eps, w, caps => w = [] ∧ caps = []
  | seq a b, w, caps => ∃ w₁ w₂ c₁ c₂, w = w₁ ++ w₂ ∧ caps = c₂ ++ c₁ ∧ Matches a w₁ c₁ ∧ Matches b w₂ c₂
  | alt a b, w, caps => Matches a w caps ∨ Matches b w caps
  | opt a, w, caps => Matches a w caps ∨ (w = [] ∧ caps = [])
  | star a, w, caps => ∃ l : List (PyStr × Caps),
      (∀ x ∈ l, x.1 ≠ [] ∧ Matches a x.1 x.2) ∧ w = (l.map (·.1)).flatten ∧ caps = (l.map (·.2)).reverse.flatten
  | group g a, w, caps => ∃ c, Matches a w c ∧ caps = (g, w) :: c

end Verif.Re
