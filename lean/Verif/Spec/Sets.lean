import Verif.Model.VersionSets
import Verif.Spec.Basic
/-!
# What version sets mean, independently of how the code computes
-/

namespace Verif
open scoped Verif

/-- Above the lower end: `none` is minus infinity. -/
def AboveMin (min : Option Version) (included : Bool) (v : Version) : Prop :=
  ∀ m, min = some m → m <ₚ v ∨ (included = true ∧ m ==ₚ v)

/-- Below the upper end: `none` is plus infinity. -/
def BelowMax (max : Option Version) (included : Bool) (v : Version) : Prop :=
  ∀ m, max = some m → v <ₚ m ∨ (included = true ∧ v ==ₚ m)

/-- The versions a range or point stands for. -/
def Item.Mem (v : Version) : Item → Prop
  | .range r => AboveMin r.min r.includeMin v ∧ BelowMax r.max r.includeMax v
  | .point p => p ==ₚ v

/-- The versions a set stands for. -/
def VSet.Mem (v : Version) : VSet → Prop
  | .empty => False
  | .item i => i.Mem v
  | .union items => ∃ i ∈ items, i.Mem v

/-- A range or point in normal form: infinite ends are not included, and `min < max` (single versions are
points, there are no empty ranges). -/
def Item.Normal : Item → Prop
  | .range r => (r.min = none → r.includeMin = false) ∧ (r.max = none → r.includeMax = false) ∧
      ∀ a b, r.min = some a → r.max = some b → a <ₚ b
  | .point _ => True

/-- `a` ends before `b` begins, with at least a version or a gap between them: they are neither overlapping
nor adjacent. -/
def Item.Before (a b : Item) : Prop :=
  ∃ x y, a.max = some x ∧ b.min = some y ∧ (x <ₚ y ∨ (x ==ₚ y ∧ a.includeMax = false ∧ b.includeMin = false))

/-- Local parts that are numbers, or strings of characters from `0` on (so any letters and digits) which are not just
zeros. Every local part parsed from a string is like this: parts made of digits only become numbers. -/
def LocalPart.Wf : LocalPart → Prop
  | .int _ => True
  | .str s => (∀ c ∈ s, '0'.toNat ≤ c.toNat) ∧ ∃ c ∈ s, '0'.toNat < c.toNat

/-- Versions that can be built through the API, with well-formed local parts. -/
structure Version.Wf (v : Version) : Prop where
  valid : v.Valid
  local_ : ∀ l, v.local_ = some l → ∀ p ∈ l.parts, p.Wf

/-- The ends of the item are well-formed versions. -/
def Item.Wf (i : Item) : Prop := (∀ v, i.min = some v → v.Wf) ∧ ∀ v, i.max = some v → v.Wf

/-- The versions in the set's representation are well-formed. -/
def VSet.Wf : VSet → Prop
  | .empty => True
  | .item i => i.Wf
  | .union items => ∀ i ∈ items, i.Wf

/-- Sets in normal form. A union has at least two items, sorted, pairwise disjoint and not adjacent. -/
def VSet.Normal : VSet → Prop
  | .empty => True
  | .item i => i.Normal
  | .union items => 2 ≤ items.length ∧ (∀ i ∈ items, i.Normal) ∧ items.Pairwise Item.Before

/-- The set's representation holds the item `i`. -/
def VSet.Has (i : Item) : VSet → Prop
  | .empty => False
  | .item j => i = j
  | .union items => i ∈ items

/-- Operands on which `union` cannot return: a single version `p` is the excluded lower end of a range, and no range
reaches `p` from below (by holding it or by ending at it). -/
def Clash (has : Item → Prop) : Prop :=
  ∃ p r, has (.point p) ∧ has (.range r) ∧ (∃ m, r.min = some m ∧ m ==ₚ p ∧ r.includeMin = false) ∧
    ∀ s, has (.range s) → ¬ (Item.range s).Mem p ∧ ∀ m, s.max = some m → ¬ m ==ₚ p

/-- `a` starts before `b`: at a lower version, or at the same one with only `a` including it. -/
def Item.StartsBefore (a b : Item) : Prop :=
  ∃ y, b.min = some y ∧ ∀ x, a.min = some x → x <ₚ y ∨ (x ==ₚ y ∧ a.includeMin = true ∧ b.includeMin = false)

/-- `a` ends before `b`: at a lower version, or at the same one with only `b` including it. -/
def Item.EndsBefore (a b : Item) : Prop :=
  ∃ x, a.max = some x ∧ ∀ y, b.max = some y → x <ₚ y ∨ (x ==ₚ y ∧ a.includeMax = false ∧ b.includeMax = true)

end Verif
