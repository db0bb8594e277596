import Verif.Props.Versions
/-!
# C01 for segments: each class with comparisons is totally ordered by them
-/

namespace Verif

/-- The five operators are the comparisons of one total preorder, whose equivalence is `==`. -/
structure TotalOps (α : Type) [PyCmp α] : Prop where
  one : ∀ a b : α, (PyCmp.lt a b = true ∧ PyCmp.eq a b = false ∧ PyCmp.gt a b = false) ∨
    (PyCmp.lt a b = false ∧ PyCmp.eq a b = true ∧ PyCmp.gt a b = false) ∨
    (PyCmp.lt a b = false ∧ PyCmp.eq a b = false ∧ PyCmp.gt a b = true)
  trans : ∀ a b c : α, PyCmp.lt a b = true → PyCmp.lt b c = true → PyCmp.lt a c = true
  eq_refl : ∀ a : α, PyCmp.eq a a = true
  eq_symm : ∀ a b : α, PyCmp.eq a b = PyCmp.eq b a
  eq_trans : ∀ a b c : α, PyCmp.eq a b = true → PyCmp.eq b c = true → PyCmp.eq a c = true
  swap : ∀ a b : α, PyCmp.gt a b = PyCmp.lt b a
  le : ∀ a b : α, PyCmp.le a b = (PyCmp.lt a b || PyCmp.eq a b)
  ge : ∀ a b : α, PyCmp.ge a b = (PyCmp.gt a b || PyCmp.eq a b)
  congr : ∀ a b c : α, PyCmp.eq a b = true → PyCmp.lt a c = PyCmp.lt b c ∧ PyCmp.lt c a = PyCmp.lt c b

theorem CmpKey.total {α : Type} [PyCmp α] {K : Type} [LinearOrder K] {key : α → K} (h : CmpKey α key) : TotalOps α where
  one a b := by
    simp only [← Bool.not_eq_true, h.lt, h.eq, h.gt]
    rcases lt_trichotomy (key a) (key b) with h | h | h
    · exact .inl ⟨h, h.ne, h.not_gt⟩
    · exact .inr (.inl ⟨h.not_lt, h, h.not_gt⟩)
    · exact .inr (.inr ⟨h.not_gt, h.ne', h⟩)
  trans a b c := by rw [h.lt, h.lt, h.lt]; exact lt_trans
  eq_refl a := by rw [h.eq]
  eq_symm a b := by rw [Bool.eq_iff_iff, h.eq, h.eq]; exact eq_comm
  eq_trans a b c := by rw [h.eq, h.eq, h.eq]; exact Eq.trans
  swap a b := by rw [Bool.eq_iff_iff, h.gt, h.lt]
  le a b := by rw [Bool.eq_iff_iff, Bool.or_eq_true, h.le, h.lt, h.eq]; exact le_iff_lt_or_eq
  ge a b := by rw [Bool.eq_iff_iff, Bool.or_eq_true, h.ge, h.gt, h.eq, le_iff_lt_or_eq, eq_comm]
  congr a b c := by
    simp only [Bool.eq_iff_iff, h.lt, h.eq]
    intro e; rw [e]; exact ⟨Iff.rfl, Iff.rfl⟩

/-- C01. Epochs, releases, tags, local segments, versions, and the ends of ranges (a version or an infinity) are each totally
ordered by their operators. -/
theorem C01_segments : TotalOps Epoch ∧ TotalOps Release ∧ TotalOps Tag ∧ TotalOps Local ∧ TotalOps Version ∧ TotalOps (Ext Version) :=
  ⟨CmpKey.epoch.total, CmpKey.release.total, CmpKey.tag.total, CmpKey.local.total, CmpKey.version.total, CmpKey.version.ext.total⟩

example : PyCmp.lt (⟨[1, 2]⟩ : Release) ⟨[1, 10]⟩ = true ∧ PyCmp.eq (⟨[1]⟩ : Release) ⟨[1, 0]⟩ = true ∧ PyCmp.gt (⟨[1]⟩ : Release) ⟨[1, 0]⟩ = false ∧
    PyCmp.lt (⟨[.str "a".toList]⟩ : Local) ⟨[.int 1]⟩ = true := by decide +kernel

theorem strKey_lt (s t : PyStr) : strKey s < strKey t ↔ s < t := by
  unfold strKey
  induction s generalizing t with
  | nil => cases t <;> simp
  | cons c s ih =>
    cases t with
    | nil => simp
    | cons d t =>
      simp only [List.map_cons, List.cons_lt_cons_iff, ih]
      have e : c.toNat = d.toNat ↔ c = d := ⟨fun h => Char.toNat_inj.1 h, fun h => by rw [h]⟩
      rw [e]; rfl

/-- C01. Epochs are ordered by their values, tags by the spelled-out phase (alphabetically) and then the value. -/
theorem C01_epochs_tags (a b : Epoch) (s t : Tag) :
    (PyCmp.lt a b = true ↔ a.value < b.value) ∧ (PyCmp.eq a b = true ↔ a = b) ∧
    (PyCmp.lt s t = true ↔ s.phase < t.phase ∨ s.phase = t.phase ∧ s.value < t.value) ∧ (PyCmp.eq s t = true ↔ s = t) := by
  refine ⟨CmpKey.epoch.lt a b, ?_, ?_, ?_⟩
  · rw [CmpKey.epoch.eq]; cases a; cases b; simp
  · rw [CmpKey.tag.lt, tagKey_lt, strKey_lt]
    have e : strKey s.phase = strKey t.phase ↔ s.phase = t.phase := ⟨fun h => strKey_injective h, fun h => by rw [h]⟩
    rw [e]
  · rw [CmpKey.tag.eq]; exact ⟨fun h => tagKey_injective h, fun h => by rw [h]⟩

example : PyCmp.lt (⟨"alpha".toList, 9⟩ : Tag) ⟨"beta".toList, 1⟩ = true ∧ PyCmp.lt (⟨"beta".toList, 9⟩ : Tag) ⟨"beta".toList, 10⟩ = true ∧
    PyCmp.lt (⟨1⟩ : Epoch) ⟨2⟩ = true := by decide +kernel

/-- C01. Nothing is below minus infinity or above infinity, and every version is strictly between. -/
theorem C01_infinities (x : Ext Version) (v : Version) :
    PyCmp.le .negInf x = true ∧ PyCmp.le x .posInf = true ∧ PyCmp.lt .negInf (Ext.fin v) = true ∧ PyCmp.lt (Ext.fin v) .posInf = true ∧
    (∀ w, PyCmp.lt (Ext.fin v) (Ext.fin w) = true ↔ v <ₚ w) := by
  refine ⟨?_, ?_, rfl, rfl, fun w => Iff.rfl⟩ <;> cases x <;> rfl

example : PyCmp.gt (Tag.mk "rc".toList 1) (Tag.mk "rc".toList 1) = false := by decide +kernel
example : PyCmp.lt (Tag.mk "candidate".toList 9) (Tag.mk "rc".toList 1) = true := by decide +kernel
example : PyCmp.lt (Local.mk [.str "abc".toList]) (Local.mk [.int 0]) = true := by decide +kernel
example : PyCmp.lt (Epoch.mk (-1)) (Epoch.mk 0) = true := by decide +kernel

end Verif
