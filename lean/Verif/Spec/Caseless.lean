/-!
# ASCII characters without case
-/

namespace Verif

/-- An ASCII character that is no letter. -/
def Caseless (c : Char) : Prop := c.toNat < 128 ∧ ¬ ('a' ≤ c ∧ c ≤ 'z') ∧ ¬ ('A' ≤ c ∧ c ≤ 'Z')

instance (c : Char) : Decidable (Caseless c) := inferInstanceAs (Decidable (_ ∧ _))

end Verif
