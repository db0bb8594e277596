import Verif.Model.Specifiers
/-!
# How deeply specifiers are nested
-/

namespace Verif.Specifier

mutual
/-- The number of specifiers on the longest way from the outermost specifier to an innermost one. -/
def depth : Specifier → Nat
  | never => 1
  | always => 1
  | one _ => 1
  | any l => depthAll l + 1
  | all l => depthAll l + 1
def depthAll : List Specifier → Nat
  | [] => 0
  | s :: l => max (depth s) (depthAll l)
end

end Verif.Specifier
