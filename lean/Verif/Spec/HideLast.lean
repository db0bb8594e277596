import Verif.Model.Specifiers
import Verif.Spec.Specification
/-!
# What the string of a specifier shows
-/

namespace Verif

/-- The operator with 0 in place of the number that the wildcard of its string hides. -/
def Operator.hideLast (o : Operator) : Operator := if o.type.isWildcard then ⟨o.type, o.version.zeroLast⟩ else o

namespace Specifier
mutual
/-- The specifier with 0 in place of every number that a wildcard hides. -/
def hideLast : Specifier → Specifier
  | never => never
  | always => always
  | one o => one o.hideLast
  | any l => any (hideLasts l)
  | all l => all (hideLasts l)
def hideLasts : List Specifier → List Specifier
  | [] => []
  | s :: l => hideLast s :: hideLasts l
end
end Specifier

end Verif
