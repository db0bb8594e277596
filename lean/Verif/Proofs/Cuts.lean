import Verif.Spec.Sets
import Verif.Proofs.Version
/-!
# Items as intervals of cuts

A cut is a position between versions: just before a version (`(k, false)`), just after it (`(k, true)`), or at an
infinite end. An item is the half-open interval `[lo, hi)` of cuts.
-/
set_option linter.unusedSimpArgs false

namespace Verif
open scoped Verif

abbrev Cut := WithBot (WithTop (VKey ×ₗ Bool))

/-- The cut just before (`false`) or after (`true`) a version. -/
def cutAt (v : Version) (after : Bool) : Cut := (((toLex (v.key, after) : VKey ×ₗ Bool) : WithTop (VKey ×ₗ Bool)) : Cut)

/-- The lower cut of a range with this lower end. -/
def loOf (min : Option Version) (included : Bool) : Cut :=
  match min with
  | none => ⊥
  | some v => cutAt v (!included)

/-- The upper cut of a range with this upper end. -/
def hiOf (max : Option Version) (included : Bool) : Cut :=
  match max with
  | none => ⊤
  | some v => cutAt v included

def Item.lo (i : Item) : Cut := loOf i.min i.includeMin
def Item.hi (i : Item) : Cut := hiOf i.max i.includeMax

theorem cutAt_lt (v w : Version) (a b : Bool) :
    cutAt v a < cutAt w b ↔ v.key < w.key ∨ v.key = w.key ∧ (a = false ∧ b = true) := by
  simp only [cutAt, WithBot.coe_lt_coe, WithTop.coe_lt_coe, Prod.Lex.toLex_lt_toLex]
  cases a <;> cases b <;> simp

theorem cutAt_le (v w : Version) (a b : Bool) :
    cutAt v a ≤ cutAt w b ↔ v.key < w.key ∨ v.key = w.key ∧ (a = true → b = true) := by
  simp only [cutAt, WithBot.coe_le_coe, WithTop.coe_le_coe, Prod.Lex.toLex_le_toLex]
  cases a <;> cases b <;> simp

theorem cutAt_eq (v w : Version) (a b : Bool) : cutAt v a = cutAt w b ↔ v.key = w.key ∧ a = b := by
  simp [cutAt, WithBot.coe_inj, WithTop.coe_inj]

theorem bot_lt_cutAt (v : Version) (a : Bool) : (⊥ : Cut) < cutAt v a := WithBot.bot_lt_coe _
theorem cutAt_lt_top (v : Version) (a : Bool) : cutAt v a < (⊤ : Cut) := coe_coe_lt_top' _
theorem bot_lt_top_cut : (⊥ : Cut) < ⊤ := (bot_lt_cutAt {} false).trans (cutAt_lt_top _ _)

/-- Infinite ends are not included. -/
def Item.EndsOk (i : Item) : Prop := (i.min = none → i.includeMin = false) ∧ (i.max = none → i.includeMax = false)

theorem Item.Normal.endsOk {i : Item} (h : i.Normal) : i.EndsOk := by
  cases i with
  | range r => exact ⟨h.1, h.2.1⟩
  | point v => constructor <;> intro h <;> simp [Item.min, Item.max, Item.fields] at h

/-! ### Comparison of ends -/

theorem elt_iff (a b : Ext Version) : PyCmp.lt a b = true ↔ extKey Version.key a < extKey Version.key b :=
  CmpKey.version.ext.lt a b
theorem egt_iff (a b : Ext Version) : PyCmp.gt a b = true ↔ extKey Version.key b < extKey Version.key a :=
  CmpKey.version.ext.gt a b
theorem eeq_iff (a b : Ext Version) : PyCmp.eq a b = true ↔ extKey Version.key a = extKey Version.key b :=
  CmpKey.version.ext.eq a b

theorem ext_fin_lt (a b : Version) : extKey Version.key (.fin a) < extKey Version.key (.fin b) ↔ a.key < b.key :=
  extKey_fin_lt_fin _ _ _
theorem ext_fin_eq (a b : Version) : extKey Version.key (.fin a) = extKey Version.key (.fin b) ↔ a.key = b.key := by
  simp [extKey]

theorem optEq_some (a b : Version) : optEq (some a) (some b) = true ↔ a.key = b.key := veq_iff a b

theorem isLower_iff {a b : Item} (ha : a.EndsOk) (hb : b.EndsOk) : a.isLower b = true ↔ a.lo < b.lo := by
  unfold Item.isLower Item.comparableMin Item.lo loOf Item.excludeMin
  obtain ⟨ha, -⟩ := ha
  obtain ⟨hb, -⟩ := hb
  simp only [elt_iff, egt_iff]
  cases hm : a.min <;> cases hn : b.min
  · simp [ha hm]
  · simp [extKey_negInf_lt_fin, bot_lt_cutAt]
  · simp [extKey_negInf_lt_fin, not_lt_of_gt (extKey_negInf_lt_fin Version.key _)]
  · rename_i x y
    simp only [ext_fin_lt, cutAt_lt]
    rcases lt_trichotomy x.key y.key with h | h | h
    · simp [h]
    · cases a.includeMin <;> cases b.includeMin <;> simp [h]
    · simp [h, not_lt_of_gt h, h.ne']

theorem isHigher_iff {a b : Item} (ha : a.EndsOk) (hb : b.EndsOk) : a.isHigher b = true ↔ b.hi < a.hi := by
  unfold Item.isHigher Item.comparableMax Item.hi hiOf Item.excludeMax
  obtain ⟨-, ha⟩ := ha
  obtain ⟨-, hb⟩ := hb
  simp only [elt_iff, egt_iff]
  cases hm : a.max <;> cases hn : b.max
  · simp [ha hm]
  · simp [extKey_fin_lt_posInf, not_lt_of_gt (extKey_fin_lt_posInf Version.key _), cutAt_lt_top]
  · simp [extKey_fin_lt_posInf, not_lt_of_gt (extKey_fin_lt_posInf Version.key _)]
  · rename_i x y
    simp only [ext_fin_lt, cutAt_lt]
    rcases lt_trichotomy x.key y.key with h | h | h
    · simp [h, not_lt_of_gt h, h.ne']
    · cases a.includeMax <;> cases b.includeMax <;> simp [h]
    · simp [h, not_lt_of_gt h, h.ne']

theorem isStrictlyLower_iff {a b : Item} (ha : a.EndsOk) (hb : b.EndsOk) :
    a.isStrictlyLower b = true ↔ a.hi ≤ b.lo := by
  unfold Item.isStrictlyLower Item.comparableMax Item.comparableMin Item.hi hiOf Item.lo loOf Item.excludeMax Item.excludeMin
  obtain ⟨-, ha⟩ := ha
  obtain ⟨hb, -⟩ := hb
  simp only [elt_iff, egt_iff]
  cases hm : a.max <;> cases hn : b.min
  · simp [extKey_negInf_lt_posInf, not_lt_of_gt (extKey_negInf_lt_posInf Version.key)]
  · rename_i y
    simp [extKey_fin_lt_posInf, not_lt_of_gt (extKey_fin_lt_posInf Version.key _), (cutAt_lt_top y _).ne]
  · rename_i x
    simp [extKey_negInf_lt_fin, not_lt_of_gt (extKey_negInf_lt_fin Version.key _), (bot_lt_cutAt x _).ne']
  · rename_i x y
    simp only [ext_fin_lt, cutAt_le]
    rcases lt_trichotomy x.key y.key with h | h | h
    · simp [h]
    · cases a.includeMax <;> cases b.includeMin <;> simp [h]
    · simp [h, not_lt_of_gt h, h.ne']

theorem isStrictlyHigher_iff {a b : Item} (ha : a.EndsOk) (hb : b.EndsOk) :
    a.isStrictlyHigher b = true ↔ b.hi ≤ a.lo := by
  rw [← isStrictlyLower_iff hb ha]
  unfold Item.isStrictlyLower Item.isStrictlyHigher
  simp only [elt_iff, egt_iff]
  rw [Bool.or_comm]

theorem isLeftAdjacent_iff {a b : Item} (ha : a.EndsOk) (hb : b.EndsOk) : a.isLeftAdjacent b = true ↔ a.hi = b.lo := by
  unfold Item.isLeftAdjacent Item.hi hiOf Item.lo loOf Item.excludeMin
  cases hm : a.max <;> cases hn : b.min
  · simp [optEq, ha.2 hm, hb.1 hn, bot_lt_top_cut.ne']
  · rename_i y
    simp [optEq, (cutAt_lt_top y _).ne']
  · rename_i x
    simp [optEq, (bot_lt_cutAt x _).ne']
  · rename_i x y
    simp [optEq_some, cutAt_eq]

theorem isRightAdjacent_iff {a b : Item} (ha : a.EndsOk) (hb : b.EndsOk) : a.isRightAdjacent b = true ↔ b.hi = a.lo := by
  rw [← isLeftAdjacent_iff hb ha]
  unfold Item.isLeftAdjacent Item.isRightAdjacent Item.excludeMin Item.excludeMax
  cases hm : a.min <;> cases hn : b.max
  · simp [optEq, ha.1 hm, hb.2 hn]
  · simp [optEq]
  · simp [optEq]
  · rename_i x y
    simp only [optEq, Bool.and_eq_true, veq_iff, eq_comm (a := x.key)]
    cases a.includeMin <;> cases b.includeMax <;> simp

theorem isAdjacent_iff {a b : Item} (ha : a.EndsOk) (hb : b.EndsOk) :
    a.isAdjacent b = true ↔ a.hi = b.lo ∨ b.hi = a.lo := by
  rw [Item.isAdjacent, Bool.or_eq_true, isLeftAdjacent_iff ha hb, isRightAdjacent_iff ha hb]

/-! ### Normal items are non-empty intervals -/

theorem Item.Normal.lo_lt_hi {i : Item} (h : i.Normal) : i.lo < i.hi := by
  cases i with
  | point v => simp [Item.lo, loOf, Item.hi, hiOf, Item.min, Item.max, Item.includeMin, Item.includeMax, Item.fields, cutAt_lt]
  | range r =>
    obtain ⟨mn, mx, imn, imx⟩ := r
    obtain ⟨h1, h2, h3⟩ := h
    simp only [Item.lo, loOf, Item.hi, hiOf, Item.min, Item.max, Item.includeMin, Item.includeMax, Item.fields] at *
    cases mn <;> cases mx
    · exact bot_lt_top_cut
    · exact bot_lt_cutAt _ _
    · exact cutAt_lt_top _ _
    · simp only [cutAt_lt]; exact Or.inl ((vlt_iff _ _).1 (h3 _ _ rfl rfl))

/-- The version as a cut. -/
def cut (v : Version) : Cut := cutAt v false

theorem ite4_iff (a b c d : Prop) [Decidable a] [Decidable b] [Decidable c] [Decidable d] :
    (if a then false else if b then false else if c then false else if d then false else true) = true ↔
      (¬ a ∧ ¬ b) ∧ ¬ c ∧ ¬ d := by
  by_cases a <;> by_cases b <;> by_cases c <;> by_cases d <;> simp [*]

theorem contains_iff {i : Item} (v : Version) : i.contains v = true ↔ i.lo ≤ cut v ∧ cut v < i.hi := by
  cases i with
  | point p =>
    simp only [Item.contains, veq_iff, Item.lo, loOf, Item.hi, hiOf, Item.min, Item.max, Item.includeMin, Item.includeMax, Item.fields,
      cut, cutAt_le, cutAt_lt]
    constructor
    · intro h; simp [h]
    · rintro ⟨h1, h2⟩
      rcases h1 with h1 | h1
      · rcases h2 with h2 | h2
        · exact absurd h1 (not_lt_of_gt h2)
        · exact h2.1.symm
      · exact h1.1
  | range r =>
    unfold Item.contains Item.comparableMin Item.comparableMax Item.excludeMin Item.excludeMax Item.lo loOf Item.hi hiOf cut
    simp only [elt_iff, egt_iff, eeq_iff, Bool.and_eq_true]
    have hmin : ∀ (o : Option Version) (b : Bool),
        ((match o with | none => (⊥ : Cut) | some w => cutAt w !b) ≤ cutAt v false) ↔
        ¬ (extKey Version.key (.fin v) < extKey Version.key (match o with | none => .negInf | some w => .fin w)) ∧
        ¬ ((!b) = true ∧ extKey Version.key (.fin v) = extKey Version.key (match o with | none => .negInf | some w => .fin w)) := by
      intro o b
      cases o with
      | none =>
        simp [not_lt_of_gt (extKey_negInf_lt_fin Version.key v), (extKey_negInf_lt_fin Version.key v).ne']
      | some w =>
        simp only [ext_fin_lt, ext_fin_eq, cutAt_le]
        rcases lt_trichotomy w.key v.key with h | h | h
        · simp [h, not_lt_of_gt h, h.ne']
        · cases b <;> simp [h]
        · simp [h, not_lt_of_gt h, h.ne']
    have hmax : ∀ (o : Option Version) (b : Bool),
        (cutAt v false < (match o with | none => (⊤ : Cut) | some w => cutAt w b)) ↔
        ¬ (extKey Version.key (match o with | none => .posInf | some w => .fin w) < extKey Version.key (.fin v)) ∧
        ¬ ((!b) = true ∧ extKey Version.key (.fin v) = extKey Version.key (match o with | none => .posInf | some w => .fin w)) := by
      intro o b
      cases o with
      | none =>
        simp [not_lt_of_gt (extKey_fin_lt_posInf Version.key v), (extKey_fin_lt_posInf Version.key v).ne, cutAt_lt_top]
      | some w =>
        simp only [ext_fin_lt, ext_fin_eq, cutAt_lt]
        rcases lt_trichotomy w.key v.key with h | h | h
        · simp [h, not_lt_of_gt h, h.ne']
        · cases b <;> simp [h]
        · simp [h, not_lt_of_gt h, h.ne]
    rw [hmin, hmax]
    exact ite4_iff _ _ _ _

theorem aboveMin_iff (o : Option Version) (b : Bool) (v : Version) :
    AboveMin o b v ↔ (match o with | none => (⊥ : Cut) | some w => cutAt w !b) ≤ cut v := by
  unfold AboveMin cut
  cases o with
  | none => simp
  | some w =>
    simp only [Option.some.injEq, forall_eq', vlt_iff, veq_iff, cutAt_le]
    cases b <;> simp

theorem belowMax_iff (o : Option Version) (b : Bool) (v : Version) :
    BelowMax o b v ↔ cut v < (match o with | none => (⊤ : Cut) | some w => cutAt w b) := by
  unfold BelowMax cut
  cases o with
  | none => simp [cutAt_lt_top]
  | some w =>
    simp only [Option.some.injEq, forall_eq', vlt_iff, veq_iff, cutAt_lt]
    cases b <;> simp

theorem mem_iff_cut (i : Item) (v : Version) : i.Mem v ↔ i.lo ≤ cut v ∧ cut v < i.hi := by
  cases i with
  | range r =>
    simp only [Item.Mem, aboveMin_iff, belowMax_iff]
    rfl
  | point p =>
    rw [← contains_iff]; rfl

theorem contains_iff_mem (i : Item) (v : Version) : i.contains v = true ↔ i.Mem v := by
  rw [contains_iff, mem_iff_cut]

theorem vset_contains_iff_mem (s : VSet) (v : Version) : s.contains v = true ↔ s.Mem v := by
  cases s with
  | empty => simp [VSet.contains, VSet.Mem]
  | item i => exact contains_iff_mem i v
  | union is => simp [VSet.contains, VSet.Mem, contains_iff_mem]

theorem before_iff (a b : Item) : a.Before b ↔ a.hi < b.lo := by
  unfold Item.Before Item.hi hiOf Item.lo loOf
  cases hm : a.max <;> cases hn : b.min
  · simp
  · rename_i y; simp [not_lt_of_gt (cutAt_lt_top y _)]
  · simp
  · rename_i x y
    simp only [Option.some.injEq, vlt_iff, veq_iff, cutAt_lt]
    constructor
    · rintro ⟨x', y', rfl, rfl, h⟩
      rcases h with h | ⟨h1, h2, h3⟩
      · exact Or.inl h
      · exact Or.inr ⟨h1, h2, by simp [h3]⟩
    · intro h
      refine ⟨x, y, rfl, rfl, ?_⟩
      rcases h with h | ⟨h1, h2, h3⟩
      · exact Or.inl h
      · exact Or.inr ⟨h1, h2, by simpa using h3⟩

end Verif
