import Verif.Model.Specifiers
/-!
# Sizes and shapes of specifiers
-/

namespace Verif.Specifier

mutual
/-- The number of operators in a specifier. -/
def operators : Specifier → Nat
  | never => 0
  | always => 0
  | one _ => 1
  | any l => operatorsAll l
  | all l => operatorsAll l
def operatorsAll : List Specifier → Nat
  | [] => 0
  | s :: l => operators s + operatorsAll l
end

/-- `>= v` or `> v`. -/
def IsLowerBound : Specifier → Prop
  | one o => o.type = .greaterOrEqual ∨ o.type = .greater
  | _ => False
/-- `<= v` or `< v`. -/
def IsUpperBound : Specifier → Prop
  | one o => o.type = .lessOrEqual ∨ o.type = .less
  | _ => False
/-- `== v`. -/
def IsPin : Specifier → Prop
  | one o => o.type = .doubleEqual
  | _ => False
/-- `!= v`. -/
def IsExclusion : Specifier → Prop
  | one o => o.type = .notEqual
  | _ => False

/-- A single piece: a version, a bound, or a lower bound and an upper bound. -/
def IsPiece (s : Specifier) : Prop :=
  s.IsPin ∨ s.IsLowerBound ∨ s.IsUpperBound ∨ ∃ a b, s = all [a, b] ∧ a.IsLowerBound ∧ b.IsUpperBound

/-- Nothing, everything, everything but one version, a piece, or several pieces. -/
def IsSimple (s : Specifier) : Prop :=
  s = never ∨ s = always ∨ s.IsExclusion ∨ s.IsPiece ∨ ∃ l, s = any l ∧ 2 ≤ l.length ∧ ∀ t ∈ l, t.IsPiece

end Verif.Specifier
