import Verif.Model.Specifiers
import Verif.Spec.Operators
/-!
# Specifiers that can be built through the API
-/

namespace Verif

/-- Specifiers that the constructors accept: at least two specifiers in `any` and `all`, operators on versions that
the constructors accept, `~=` only on versions with at least two parts. -/
inductive Specifier.Valid : Specifier → Prop
  | never : Valid .never
  | always : Valid .always
  | one {o : Operator} : o.version.Valid → (o.type = .tildeEqual → 2 ≤ o.version.release.precision) → Valid (.one o)
  | any {l : List Specifier} : 2 ≤ l.length → (∀ s ∈ l, s.Valid) → Valid (.any l)
  | all {l : List Specifier} : 2 ≤ l.length → (∀ s ∈ l, s.Valid) → Valid (.all l)

end Verif
