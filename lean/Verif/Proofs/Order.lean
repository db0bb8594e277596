import Mathlib.Data.Prod.Lex
import Mathlib.Order.WithBot
import Mathlib.Data.List.Lex
import Mathlib.Tactic.Order
import Verif.Model.Version
/-!
# The comparison operators amount to a linear order on keys
-/

set_option linter.unusedSimpArgs false

namespace Verif

/-- The five operators of `α` are the comparisons of keys in a linear order. -/
structure CmpKey (α : Type) [PyCmp α] {K : Type} [LinearOrder K] (key : α → K) : Prop where
  eq : ∀ a b, PyCmp.eq a b = true ↔ key a = key b
  lt : ∀ a b, PyCmp.lt a b = true ↔ key a < key b
  le : ∀ a b, PyCmp.le a b = true ↔ key a ≤ key b
  gt : ∀ a b, PyCmp.gt a b = true ↔ key b < key a
  ge : ∀ a b, PyCmp.ge a b = true ↔ key b ≤ key a

theorem CmpKey.int : CmpKey Int id := by
  constructor <;> intro a b <;> simp [PyCmp.eq, PyCmp.lt, PyCmp.le, PyCmp.gt, PyCmp.ge]

theorem CmpKey.char : CmpKey Char Char.toNat := by
  constructor <;> intro a b <;> simp [PyCmp.eq, PyCmp.lt, PyCmp.le, PyCmp.gt, PyCmp.ge]

theorem cons_le_cons' {K : Type} [LinearOrder K] (x y : K) (xs ys : List K) :
    x :: xs ≤ y :: ys ↔ x < y ∨ (x = y ∧ xs ≤ ys) := by
  rw [← not_lt, List.cons_lt_cons_iff, ← not_lt (a := ys)]
  rcases lt_trichotomy x y with h | h | h
  · simp [h, h.ne', not_lt_of_gt h]
  · simp [h]
  · simp [h, h.ne', not_lt_of_gt h]

theorem nil_le' {K : Type} [LinearOrder K] (xs : List K) : [] ≤ xs := by
  rw [← not_lt]; simp

theorem CmpKey.list {α K : Type} [PyCmp α] [LinearOrder K] {key : α → K} (h : CmpKey α key) :
    CmpKey (List α) (List.map key) := by
  constructor
  · intro a b
    simp only [PyCmp.eq]
    induction a generalizing b with
    | nil => cases b <;> simp [seqCmp, nil_le']
    | cons x xs ih =>
      cases b with
      | nil => simp [seqCmp, nil_le', ← not_lt]
      | cons y ys =>
        have := h.eq x y
        by_cases hxy : PyCmp.eq x y = true <;> simp_all [seqCmp]
  · intro a b
    simp only [PyCmp.lt]
    induction a generalizing b with
    | nil => cases b <;> simp [seqCmp, nil_le']
    | cons x xs ih =>
      cases b with
      | nil => simp [seqCmp, nil_le', ← not_lt]
      | cons y ys =>
        have h1 := h.eq x y
        have h2 := h.lt x y
        by_cases hxy : PyCmp.eq x y = true <;> simp_all [seqCmp, List.cons_lt_cons_iff]
  · intro a b
    simp only [PyCmp.le]
    induction a generalizing b with
    | nil => cases b <;> simp [seqCmp, nil_le']
    | cons x xs ih =>
      cases b with
      | nil => simp [seqCmp, nil_le', ← not_lt]
      | cons y ys =>
        have h1 := h.eq x y
        have h2 := h.le x y
        by_cases hxy : PyCmp.eq x y = true
        · simp_all [seqCmp, cons_le_cons']
        · have : key x ≠ key y := fun e => hxy (h1.2 e)
          have hle : (key x ≤ key y ↔ key x < key y) ∧ (key y ≤ key x ↔ key y < key x) := by
            constructor <;> constructor <;> intro h <;> order
          simp_all [seqCmp, cons_le_cons']
  · intro a b
    simp only [PyCmp.gt]
    induction a generalizing b with
    | nil => cases b <;> simp [seqCmp, nil_le']
    | cons x xs ih =>
      cases b with
      | nil => simp [seqCmp, nil_le', ← not_lt]
      | cons y ys =>
        have h1 := h.eq x y
        have h2 := h.gt x y
        by_cases hxy : PyCmp.eq x y = true
        · simp_all [seqCmp, List.cons_lt_cons_iff]
        · have : key y ≠ key x := fun e => hxy (h1.2 e.symm)
          simp_all [seqCmp, List.cons_lt_cons_iff]
  · intro a b
    simp only [PyCmp.ge]
    induction a generalizing b with
    | nil => cases b <;> simp [seqCmp, nil_le']
    | cons x xs ih =>
      cases b with
      | nil => simp [seqCmp, nil_le', ← not_lt]
      | cons y ys =>
        have h1 := h.eq x y
        have h2 := h.ge x y
        by_cases hxy : PyCmp.eq x y = true
        · simp_all [seqCmp, cons_le_cons']
        · have : key y ≠ key x := fun e => hxy (h1.2 e.symm)
          have hle : (key x ≤ key y ↔ key x < key y) ∧ (key y ≤ key x ↔ key y < key x) := by
            constructor <;> constructor <;> intro h <;> order
          simp_all [seqCmp, cons_le_cons']

theorem CmpKey.prod {α β K L : Type} [PyCmp α] [PyCmp β] [LinearOrder K] [LinearOrder L] {k : α → K} {l : β → L}
    (h : CmpKey α k) (h' : CmpKey β l) : CmpKey (α × β) (fun p => toLex (k p.1, l p.2)) := by
  constructor
  all_goals
    rintro ⟨a1, a2⟩ ⟨b1, b2⟩
    have e1 := h.eq a1 b1
    have e2 := h'.eq a2 b2
    have l1 := h.lt a1 b1
    have l2 := h'.lt a2 b2
    have m1 := h.le a1 b1
    have m2 := h'.le a2 b2
    have g1 := h.gt a1 b1
    have g2 := h'.gt a2 b2
    have n1 := h.ge a1 b1
    have n2 := h'.ge a2 b2
  · simp [PyCmp.eq, e1, e2]
  · by_cases hx : PyCmp.eq a1 b1 = true
    · simp_all [PyCmp.lt, Prod.Lex.toLex_lt_toLex]
    · have : k a1 ≠ k b1 := fun e => hx (e1.2 e)
      simp_all [PyCmp.lt, Prod.Lex.toLex_lt_toLex]
  · by_cases hx : PyCmp.eq a1 b1 = true
    · simp_all [PyCmp.le, Prod.Lex.toLex_le_toLex]
    · have : k a1 ≠ k b1 := fun e => hx (e1.2 e)
      simp_all [PyCmp.le, Prod.Lex.toLex_le_toLex, this.le_iff_lt]
  · by_cases hx : PyCmp.eq a1 b1 = true
    · simp_all [PyCmp.gt, Prod.Lex.toLex_lt_toLex]
    · have : k b1 ≠ k a1 := fun e => hx (e1.2 e.symm)
      simp_all [PyCmp.gt, Prod.Lex.toLex_lt_toLex]
  · by_cases hx : PyCmp.eq a1 b1 = true
    · simp_all [PyCmp.ge, Prod.Lex.toLex_le_toLex]
    · have : k b1 ≠ k a1 := fun e => hx (e1.2 e.symm)
      simp_all [PyCmp.ge, Prod.Lex.toLex_le_toLex, this.le_iff_lt]

/-- The key of a value or an infinity. -/
def extKey {α K : Type} (key : α → K) : Ext α → WithBot (WithTop K)
  | .negInf => ⊥
  | .posInf => ((⊤ : WithTop K) : WithBot (WithTop K))
  | .fin a => ((key a : WithTop K) : WithBot (WithTop K))

theorem coe_coe_lt_top' {K : Type} [LinearOrder K] (k : K) : ((k : WithTop K) : WithBot (WithTop K)) < ⊤ :=
  WithBot.coe_lt_coe.2 (WithTop.coe_lt_top k)

theorem CmpKey.ext {α K : Type} [PyCmp α] [LinearOrder K] {key : α → K} (h : CmpKey α key) :
    CmpKey (Ext α) (extKey key) := by
  constructor
  all_goals
    intro a b
    cases a <;> cases b <;>
      simp [PyCmp.eq, PyCmp.lt, PyCmp.le, PyCmp.gt, PyCmp.ge, extKey, Infinity.eq, Infinity.lt, Infinity.le,
        Infinity.gt, Infinity.ge, NegativeInfinity.eq, NegativeInfinity.lt, NegativeInfinity.le, NegativeInfinity.gt,
        NegativeInfinity.ge, Ext.isInfinity, Ext.isNegativeInfinity, h.eq, h.lt, h.le, h.gt, h.ge, coe_coe_lt_top']

theorem CmpKey.attrs {α β K : Type} [PyCmp β] [LinearOrder K] {key : β → K} (h : CmpKey β key) (f : α → β) :
    @CmpKey α (attrsCmp f) K _ (fun a => key (f a)) :=
  @CmpKey.mk α (attrsCmp f) K _ _ (fun _ _ => h.eq _ _) (fun _ _ => h.lt _ _) (fun _ _ => h.le _ _)
    (fun _ _ => h.gt _ _) (fun _ _ => h.ge _ _)

/-- A class with a single comparison field. -/
theorem CmpKey.attrs1 {α β K : Type} [PyCmp β] [LinearOrder K] {key : β → K} (h : CmpKey β key) (f : α → β) :
    @CmpKey α (attrsCmp (fun a => [f a])) K _ (fun a => key (f a)) := by
  let _ := attrsCmp (fun a => [f a])
  have h1 := h.list.attrs (fun a => [f a])
  refine CmpKey.mk ?_ ?_ ?_ ?_ ?_
  · intro a b; rw [h1.eq]; simp
  · intro a b; rw [h1.lt]; simp [List.cons_lt_cons_iff]
  · intro a b; rw [h1.le]; simp [le_iff_lt_or_eq, List.cons_lt_cons_iff]
  · intro a b; rw [h1.gt]; simp [List.cons_lt_cons_iff]
  · intro a b; rw [h1.ge]; simp [le_iff_lt_or_eq, List.cons_lt_cons_iff]

/-! ## Keys of the segments -/

abbrev StrKey := List Nat
abbrev TagKey := StrKey ×ₗ Int
abbrev LocalPartKey := WithBot (WithTop Int) ×ₗ StrKey
abbrev LocalKey := List LocalPartKey
abbrev ExtTagKey := WithBot (WithTop TagKey)
abbrev ExtLocalKey := WithBot (WithTop LocalKey)
/-- The linear order of versions. -/
abbrev VKey := Int ×ₗ List Int ×ₗ ExtTagKey ×ₗ ExtTagKey ×ₗ ExtTagKey ×ₗ ExtLocalKey

def strKey (s : PyStr) : StrKey := s.map Char.toNat
def Tag.key (t : Tag) : TagKey := toLex (strKey t.phase, t.value)
def localPartKey (p : LocalPart) : LocalPartKey :=
  toLex (extKey id (Local.comparePart p).1, strKey (Local.comparePart p).2)
def Local.key (l : Local) : LocalKey := l.parts.map localPartKey

def Version.key (v : Version) : VKey :=
  toLex (v.epoch.value, toLex (v.release.compareParts,
    toLex (extKey Tag.key (Version.comparePre v.pre v.post v.dev), toLex (extKey Tag.key (Version.comparePost v.post),
      toLex (extKey Tag.key (Version.compareDev v.dev), extKey Local.key (Version.compareLocal v.local_))))))

theorem CmpKey.str : CmpKey PyStr strKey := CmpKey.char.list

theorem CmpKey.epoch : CmpKey Epoch Epoch.value := CmpKey.int.attrs1 Epoch.value

theorem CmpKey.release : CmpKey Release Release.compareParts := by
  have h := CmpKey.int.list.attrs1 Release.compareParts
  simpa using h

theorem CmpKey.tag : CmpKey Tag Tag.key :=
  (CmpKey.str.prod CmpKey.int).attrs (fun t : Tag => (t.phase, t.value))

theorem CmpKey.local : CmpKey Local Local.key := by
  have h := ((CmpKey.int.ext.prod CmpKey.str).list).attrs1 Local.compareParts
  have e : Local.key = fun a : Local => (a.compareParts).map
      (fun p => toLex (extKey id p.1, strKey p.2)) := by
    funext l; simp [Local.key, Local.compareParts, Function.comp_def, localPartKey]
  rw [e]; exact h

theorem CmpKey.version : CmpKey Version Version.key :=
  (CmpKey.epoch.prod (CmpKey.release.prod (CmpKey.tag.ext.prod (CmpKey.tag.ext.prod (CmpKey.tag.ext.prod
    CmpKey.local.ext))))).attrs1 Version.compareKey

end Verif
