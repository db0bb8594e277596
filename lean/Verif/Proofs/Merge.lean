import Verif.Proofs.Items
import Mathlib.Data.Prod.Lex
/-!
# Merging items into a union
-/
set_option linter.unusedSimpArgs false

namespace Verif
open scoped Verif

/-- The cut `c` lies inside one of the items. -/
def Cov (l : List Item) (c : Cut) : Prop := ∃ i ∈ l, i.lo ≤ c ∧ c < i.hi

def AllNormal (l : List Item) : Prop := ∀ i ∈ l, i.Normal

/-- Sorted, with gaps. -/
def Gaps (l : List Item) : Prop := l.Pairwise (fun a b => a.hi < b.lo)

/-- The set with the given normal list of items. -/
def ofItems : List Item → VSet
  | [] => .empty
  | [i] => .item i
  | l => .union l

theorem extract_ofItems (l : List Item) : (ofItems l).extract = l := by
  match l with
  | [] => rfl
  | [i] => rfl
  | _ :: _ :: _ => rfl

theorem gaps_iff (l : List Item) : Gaps l ↔ l.Pairwise Item.Before := by
  unfold Gaps
  have : Item.Before = fun a b => a.hi < b.lo := by funext a b; exact propext (before_iff a b)
  rw [this]

theorem normal_ofItems {l : List Item} (h : AllNormal l) (g : Gaps l) : (ofItems l).Normal := by
  match l, h, g with
  | [], _, _ => trivial
  | [i], h, _ => exact h i (by simp)
  | a :: b :: l, h, g => exact ⟨by simp, h, (gaps_iff _).1 g⟩

theorem VSet.Normal.extract {s : VSet} (h : s.Normal) : AllNormal s.extract ∧ Gaps s.extract ∧ s = ofItems s.extract := by
  cases s with
  | empty => simp [VSet.extract, AllNormal, Gaps, ofItems]
  | item i =>
    refine ⟨?_, by simp [VSet.extract, Gaps], rfl⟩
    intro j hj; simp [VSet.extract] at hj; subst hj; exact h
  | union l =>
    refine ⟨h.2.1, (gaps_iff _).2 h.2.2, ?_⟩
    match l, h with
    | [], h => exact absurd h.1 (by simp)
    | [_], h => exact absurd h.1 (by simp)
    | _ :: _ :: _, _ => rfl

theorem mem_iff_cov (s : VSet) (v : Version) : s.Mem v ↔ Cov s.extract (cut v) := by
  cases s with
  | empty => simp [VSet.Mem, VSet.extract, Cov]
  | item i => simp [VSet.Mem, VSet.extract, Cov, mem_iff_cut]
  | union l => simp only [VSet.Mem, VSet.extract, Cov, mem_iff_cut]

@[simp] theorem cov_nil (c : Cut) : Cov [] c ↔ False := by simp [Cov]
@[simp] theorem cov_cons (i : Item) (l : List Item) (c : Cut) : Cov (i :: l) c ↔ (i.lo ≤ c ∧ c < i.hi) ∨ Cov l c := by
  simp [Cov]
@[simp] theorem cov_append (l m : List Item) (c : Cut) : Cov (l ++ m) c ↔ Cov l c ∨ Cov m c := by
  simp only [Cov, List.mem_append, or_and_right, exists_or]
theorem cov_reverse (l : List Item) (c : Cut) : Cov l.reverse c ↔ Cov l c := by simp [Cov]
theorem cov_perm {l m : List Item} (h : l.Perm m) (c : Cut) : Cov l c ↔ Cov m c := by simp [Cov, h.mem_iff]

/-! ### The order used for sorting -/

abbrev ItemKey := ((WithBot (WithTop VKey) ×ₗ Bool) ×ₗ (WithBot (WithTop VKey) ×ₗ Bool))

/-- The sort key of any item. -/
def Item.sortKey (i : Item) : ItemKey :=
  toLex (toLex (extKey Version.key i.comparableMin, !i.includeMin), toLex (extKey Version.key i.comparableMax, i.includeMax))

theorem item_lt_key (a b : Item) : a.lt b = true ↔ a.sortKey < b.sortKey := by
  have h1 : ∀ a b : Item, a.isLower b = true ↔
      toLex (extKey Version.key a.comparableMin, !a.includeMin) < toLex (extKey Version.key b.comparableMin, !b.includeMin) := by
    intro a b
    unfold Item.isLower Item.excludeMin
    rw [Prod.Lex.toLex_lt_toLex]
    simp only [elt_iff, egt_iff]
    rcases lt_trichotomy (extKey Version.key a.comparableMin) (extKey Version.key b.comparableMin) with h | h | h
    · simp [h]
    · simp only [h, lt_irrefl, if_false]; cases a.includeMin <;> cases b.includeMin <;> simp
    · simp [h, not_lt_of_gt h, h.ne', h.le, not_le_of_gt h]
  have h2 : ∀ a b : Item, a.isHigher b = true ↔
      toLex (extKey Version.key b.comparableMax, b.includeMax) < toLex (extKey Version.key a.comparableMax, a.includeMax) := by
    intro a b
    unfold Item.isHigher Item.excludeMax
    rw [Prod.Lex.toLex_lt_toLex]
    simp only [elt_iff, egt_iff]
    rcases lt_trichotomy (extKey Version.key a.comparableMax) (extKey Version.key b.comparableMax) with h | h | h
    · simp [h, not_lt_of_gt h, h.ne', h.le, not_le_of_gt h]
    · simp only [h, lt_irrefl, if_false]; cases a.includeMax <;> cases b.includeMax <;> simp
    · simp [h, h.le]
  unfold Item.sortKey Item.lt
  rw [Prod.Lex.toLex_lt_toLex, compare_eq]
  simp only [h1, h2]
  generalize toLex (extKey Version.key a.comparableMin, !a.includeMin) = x
  generalize toLex (extKey Version.key b.comparableMin, !b.includeMin) = y
  generalize toLex (extKey Version.key a.comparableMax, a.includeMax) = z
  generalize toLex (extKey Version.key b.comparableMax, b.includeMax) = w
  rcases lt_trichotomy x y with h | h | h
  · simp [h]
  · subst h
    rcases lt_trichotomy z w with g | g | g
    · simp [g, not_lt_of_gt g]
    · simp [g]
    · simp [g, not_lt_of_gt g]
  · simp [h, not_lt_of_gt h, h.ne']

/-- The order of the sorted list. -/
def SortLe (a b : Item) : Prop := a.lo < b.lo ∨ a.lo = b.lo ∧ a.hi ≤ b.hi

theorem not_lt_iff {a b : Item} (ha : a.EndsOk) (hb : b.EndsOk) : (!b.lt a) = true ↔ SortLe a b := by
  rw [Bool.not_eq_true', Bool.eq_false_iff, ne_eq, item_lt_iff hb ha]
  unfold SortLe
  rcases lt_trichotomy a.lo b.lo with h | h | h
  · simp [h, not_lt_of_gt h, h.ne']
  · simp [h]
  · simp [h, not_lt_of_gt h, h.ne']

theorem sortItems_perm (l : List Item) : (VSet.sortItems l).Perm l := List.perm_insertionSort _ _

theorem sortItems_sorted {l : List Item} (h : AllNormal l) : (VSet.sortItems l).Pairwise SortLe := by
  have h1 : (VSet.sortItems l).Pairwise (fun a b => (!b.lt a) = true) := by
    have ht : IsTrans Item (fun a b => (!b.lt a) = true) := by
      constructor
      intro a b c hab hbc
      simp only [Bool.not_eq_true', Bool.eq_false_iff, ne_eq, item_lt_key, not_lt] at *
      exact hab.trans hbc
    have hto : Std.Total (fun a b : Item => (!b.lt a) = true) := by
      constructor
      intro a b
      simp only [Bool.not_eq_true', Bool.eq_false_iff, ne_eq, item_lt_key, not_lt]
      exact le_total _ _
    exact List.pairwise_insertionSort _ l
  refine h1.imp_of_mem ?_
  intro a b ha hb hab
  exact (not_lt_iff (h a ((sortItems_perm l).mem_iff.1 ha)).endsOk (h b ((sortItems_perm l).mem_iff.1 hb)).endsOk).1 hab

theorem sortItems_eq {l : List Item} (h : AllNormal l) (hs : l.Pairwise SortLe) : VSet.sortItems l = l := by
  apply List.Pairwise.insertionSort_eq
  refine hs.imp_of_mem ?_
  intro a b ha hb hab
  exact (not_lt_iff (h a ha).endsOk (h b hb).endsOk).2 hab

/-! ### Joining two items -/

theorem connected_iff {a b : Item} (ha : a.Normal) (hb : b.Normal) :
    (a.intersectsItem b || a.isAdjacent b) = true ↔ a.lo ≤ b.hi ∧ b.lo ≤ a.hi := by
  rw [Bool.or_eq_true, intersectsItem_iff ha hb, isAdjacent_iff ha.endsOk hb.endsOk]
  have := ha.lo_lt_hi
  have := hb.lo_lt_hi
  constructor
  · rintro (⟨h1, h2⟩ | h | h)
    · exact ⟨h1.le, h2.le⟩
    · constructor <;> order
    · constructor <;> order
  · rintro ⟨h1, h2⟩
    rcases h1.lt_or_eq with h1 | h1
    · rcases h2.lt_or_eq with h2 | h2
      · exact .inl ⟨h1, h2⟩
      · exact .inr (.inl h2.symm)
    · exact .inr (.inr h1.symm)

theorem isUniversal_iff {i : Item} (h : i.Normal) : i.isUniversal = true ↔ i = universalItem := by
  cases i with
  | point v => simp [Item.isUniversal, universalItem]
  | range r =>
    obtain ⟨mn, mx, a, b⟩ := r
    have h1 := h.1
    have h2 := h.2.1
    simp only at h1 h2
    cases mn <;> cases mx <;>
      simp_all [Item.isUniversal, Item.isUnbounded, universalItem, Item.min, Item.max, Item.fields]

theorem universal_lo : universalItem.lo = ⊥ := rfl
theorem universal_hi : universalItem.hi = ⊤ := rfl
theorem universal_normal : universalItem.Normal := ⟨fun _ => rfl, fun _ => rfl, by rintro a b h; cases h⟩

theorem lo_range_eq_cut {r : VRange} (h : (Item.range r).Normal) {v : Version} {b : Bool}
    (he : (Item.range r).lo = cutAt v b) : ∃ w, r.min = some w ∧ w.key = v.key ∧ r.includeMin = !b := by
  simp only [Item.lo, Item.min, Item.includeMin, Item.fields] at he
  cases hm : r.min with
  | none => rw [hm] at he; exact absurd he (bot_lt_cutAt _ _).ne
  | some w =>
    rw [hm] at he
    simp only [loOf, cutAt_eq] at he
    exact ⟨w, rfl, he.1, by rw [← he.2]; simp⟩

theorem hi_range_eq_cut {r : VRange} (h : (Item.range r).Normal) {v : Version} {b : Bool}
    (he : (Item.range r).hi = cutAt v b) : ∃ w, r.max = some w ∧ w.key = v.key ∧ r.includeMax = b := by
  simp only [Item.hi, Item.max, Item.includeMax, Item.fields] at he
  cases hm : r.max with
  | none => rw [hm] at he; exact absurd he (cutAt_lt_top _ _).ne'
  | some w =>
    rw [hm] at he
    simp only [hiOf, cutAt_eq] at he
    exact ⟨w, rfl, he.1, he.2⟩

def Item.IsPt : Item → Prop
  | .point _ => True
  | .range _ => False

theorem Item.IsPt.hi_lo {a : Item} (h : a.IsPt) : ∃ v, a.lo = cutAt v false ∧ a.hi = cutAt v true := by
  cases a with
  | point v => exact ⟨v, rfl, rfl⟩
  | range r => exact h.elim

theorem Item.Normal.wide {a : Item} (h : a.Normal) (hp : ¬ a.IsPt) : Wide a.lo a.hi := by
  cases a with
  | point v => exact absurd trivial hp
  | range r => exact normal_wide h

/-- The pair of items on which `union` does not return: a version and a range that starts right after it. -/
def BadPair (a b : Item) : Prop := a.IsPt ∧ ¬ b.IsPt ∧ b.lo = a.hi

theorem optEq_iff {v : Version} {o : Option Version} : optEq (some v) o = true ↔ ∃ w, o = some w ∧ v.key = w.key := by
  cases o with
  | none => simp [optEq]
  | some w => simp [optEq_some]

/-- `union` of connected items, except for a point on the left and an adjacent range on the right. -/
theorem unionItem_connected {a b : Item} (ha : a.Normal) (hb : b.Normal) (h1 : a.lo ≤ b.hi) (h2 : b.lo ≤ a.hi)
    (h3 : ¬ (a.IsPt ∧ ¬ b.IsPt ∧ (b.lo = a.hi ∨ b.hi = a.lo))) :
    ∃ j, (∀ lim, Item.unionItem (lim + 1) a b = .ok (.item j)) ∧ j.Normal ∧ j.lo = min a.lo b.lo ∧ j.hi = max a.hi b.hi ∧
      (j.IsPt ↔ a.IsPt ∧ b.IsPt) := by
  have la := ha.lo_lt_hi
  have lb := hb.lo_lt_hi
  cases a with
  | point v =>
    have hc : b.contains v = true ∨ (b.IsPt) := by
      by_cases hp : b.IsPt
      · exact .inr hp
      · left
        rw [contains_iff]
        have : ¬ (b.lo = cutAt v true) := fun h => h3 ⟨trivial, hp, .inl h⟩
        have : ¬ (b.hi = cutAt v false) := fun h => h3 ⟨trivial, hp, .inr h⟩
        simp only [point_lo, point_hi] at h1 h2
        constructor
        · exact (lt_after_iff _ _).1 (by order)
        · exact lt_of_le_of_ne h1 (Ne.symm this)
    cases b with
    | point w =>
      simp only [point_lo, point_hi, cutAt_le] at h1 h2
      have hk : v.key = w.key := by
        rcases h1 with h1 | h1
        · rcases h2 with h2 | h2
          · exact absurd h1 (not_lt_of_gt h2)
          · exact h2.1.symm
        · exact h1.1
      refine ⟨.point v, ?_, trivial, ?_, ?_, by simp [Item.IsPt]⟩
      · intro lim
        have : (Item.point v).contains w = true := by simp [Item.contains, veq_iff, hk]
        simp [Item.unionItem, this]
      · have : cutAt v false = cutAt w false := by simp [cutAt_eq, hk]
        simp [this]
      · have : cutAt v true = cutAt w true := by simp [cutAt_eq, hk]
        simp [this]
    | range s =>
      have hc : (Item.range s).contains v = true := hc.resolve_right (fun h => h)
      have hc' := (contains_iff v).1 hc
      refine ⟨.range s, ?_, hb, ?_, ?_, by simp [Item.IsPt]⟩
      · intro lim; simp [Item.unionItem, hc]
      · exact (min_eq_right hc'.1).symm
      · exact (max_eq_right ((before_lt_iff _ _).1 hc'.2)).symm
  | range r => cases b with
    | point v =>
      simp only [point_lo, point_hi] at h1 h2 lb ⊢
      by_cases hc : (Item.range r).contains v = true
      · have hc' := (contains_iff v).1 hc
        refine ⟨.range r, ?_, ha, ?_, ?_, by simp [Item.IsPt]⟩
        · intro lim; simp [Item.unionItem, hc]
        · exact (min_eq_left hc'.1).symm
        · exact (max_eq_left ((before_lt_iff _ _).1 hc'.2)).symm
      · have hcf : (Item.range r).contains v = false := by simpa using hc
        rw [contains_iff, not_and_or, not_le, not_lt] at hc
        rcases hc with hc | hc
        · have he : (Item.range r).lo = cutAt v true := le_antisymm h1 ((before_lt_iff _ _).1 hc)
          obtain ⟨w, hw1, hw2, hw3⟩ := lo_range_eq_cut ha he
          have heq : optEq (some v) (Item.range r).min = true := optEq_iff.2 ⟨w, hw1, hw2.symm⟩
          have hlo : loOf (Item.range r).min true = cutAt v false := by
            simp [Item.min, Item.fields, hw1, loOf, cutAt_eq, hw2]
          have hlt : loOf (Item.range r).min true < hiOf (Item.range r).max (Item.range r).includeMax := by
            rw [hlo, ← hi_eq_hiOf]; order
          have hne : (Item.range r).min = none → true = false := by simp [Item.min, Item.fields, hw1]
          refine ⟨.range ⟨(Item.range r).min, (Item.range r).max, true, (Item.range r).includeMax⟩, ?_,
            mkRange_normal hne ha.endsOk.2 hlt ?_, ?_, ?_, by simp [Item.IsPt]⟩
          · intro lim
            simp only [Item.unionItem, hcf, heq, Bool.false_eq_true, if_false, if_true, mkRange_ok hne ha.endsOk.2 hlt]
            rfl
          · refine (normal_wide ha).mono la ?_ le_rfl
            rw [hlo]; order
          · show loOf (Item.range r).min true = _
            rw [hlo, he, min_eq_right lb.le]
          · show (Item.range r).hi = _
            rw [max_eq_left]; order
        · have he : (Item.range r).hi = cutAt v false := le_antisymm hc h2
          obtain ⟨w, hw1, hw2, hw3⟩ := hi_range_eq_cut ha he
          have hmin : optEq (some v) (Item.range r).min = false := by
            rw [Bool.eq_false_iff, ne_eq, optEq_iff]
            rintro ⟨x, hx1, hx2⟩
            have := (vlt_iff _ _).1 (ha.2.2 x w hx1 hw1)
            rw [hw2, hx2] at this
            exact lt_irrefl _ this
          have heq : optEq (some v) (Item.range r).max = true := optEq_iff.2 ⟨w, hw1, hw2.symm⟩
          have hhi : hiOf (Item.range r).max true = cutAt v true := by
            simp [Item.max, Item.fields, hw1, hiOf, cutAt_eq, hw2]
          have hlt : loOf (Item.range r).min (Item.range r).includeMin < hiOf (Item.range r).max true := by
            rw [hhi, ← lo_eq_loOf]; order
          have hne : (Item.range r).max = none → true = false := by simp [Item.max, Item.fields, hw1]
          refine ⟨.range ⟨(Item.range r).min, (Item.range r).max, (Item.range r).includeMin, true⟩, ?_,
            mkRange_normal ha.endsOk.1 hne hlt ?_, ?_, ?_, by simp [Item.IsPt]⟩
          · intro lim
            simp only [Item.unionItem, hcf, hmin, heq, Bool.false_eq_true, if_false, if_true, mkRange_ok ha.endsOk.1 hne hlt]
            rfl
          · refine (normal_wide ha).mono la le_rfl ?_
            rw [hhi]; order
          · show (Item.range r).lo = _
            rw [min_eq_left]; order
          · show hiOf (Item.range r).max true = _
            rw [hhi, max_eq_right]; order
    | range s =>
      have hc := (connected_iff ha hb).2 ⟨h1, h2⟩
      have hc' : (!(Item.range r).isAdjacent (.range s) && !(Item.range r).intersectsItem (.range s)) = false := by
        rw [Bool.or_eq_true] at hc
        rcases hc with h | h <;> simp [h]
      have e1 := isLower_iff ha.endsOk hb.endsOk
      have e2 := isHigher_iff ha.endsOk hb.endsOk
      have hlo : ∃ mn imn, (if (Item.range r).isLower (.range s) = true then ((Item.range r).min, (Item.range r).includeMin)
          else ((Item.range s).min, (Item.range s).includeMin)) = (mn, imn) ∧ (mn = none → imn = false) ∧
          loOf mn imn = min (Item.range r).lo (Item.range s).lo := by
        by_cases h : (Item.range r).lo < (Item.range s).lo
        · exact ⟨_, _, by rw [if_pos (e1.2 h)], ha.endsOk.1, (min_eq_left h.le).symm⟩
        · exact ⟨_, _, by rw [if_neg (fun h' => h (e1.1 h'))], hb.endsOk.1, (min_eq_right (not_lt.1 h)).symm⟩
      have hhi : ∃ mx imx, (if (Item.range r).isHigher (.range s) = true then ((Item.range r).max, (Item.range r).includeMax)
          else ((Item.range s).max, (Item.range s).includeMax)) = (mx, imx) ∧ (mx = none → imx = false) ∧
          hiOf mx imx = max (Item.range r).hi (Item.range s).hi := by
        by_cases h : (Item.range s).hi < (Item.range r).hi
        · exact ⟨_, _, by rw [if_pos (e2.2 h)], ha.endsOk.2, (max_eq_left h.le).symm⟩
        · exact ⟨_, _, by rw [if_neg (fun h' => h (e2.1 h'))], hb.endsOk.2, (max_eq_right (not_lt.1 h)).symm⟩
      obtain ⟨mn, imn, g1, g2, g3⟩ := hlo
      obtain ⟨mx, imx, k1, k2, k3⟩ := hhi
      have hlt : loOf mn imn < hiOf mx imx := by
        rw [g3, k3]
        exact lt_of_le_of_lt (min_le_left _ _) (lt_of_lt_of_le la (le_max_left _ _))
      refine ⟨.range ⟨mn, mx, imn, imx⟩, ?_, mkRange_normal g2 k2 hlt ?_, g3, k3, by simp [Item.IsPt]⟩
      · intro lim
        simp only [Item.unionItem, hc', Bool.false_eq_true, if_false, g1, k1, mkRange_ok g2 k2 hlt]
        rfl
      · rw [g3, k3]
        exact (normal_wide ha).mono la (min_le_left _ _) (le_max_left _ _)

/-! ### The loop -/

/-- Items on which `merge` does not return: some version, some range starting right after it, and no range that
reaches the version. -/
def Bad (l : List Item) : Prop :=
  ∃ p ∈ l, p.IsPt ∧ (∃ r ∈ l, ¬ r.IsPt ∧ r.lo = p.hi) ∧ ∀ s ∈ l, ¬ s.IsPt → ¬ (s.lo ≤ p.lo ∧ p.lo ≤ s.hi)

theorem Bad.perm {l m : List Item} (h : l.Perm m) : Bad l ↔ Bad m := by
  unfold Bad; simp only [h.mem_iff]

theorem SortLe.lo_le {a b : Item} (h : SortLe a b) : a.lo ≤ b.lo := by
  rcases h with h | h
  · exact h.le
  · exact h.1.le

theorem pt_lt_of_le {p : Item} (h : p.IsPt) (c : Cut) : c < p.hi ↔ c ≤ p.lo := by
  obtain ⟨v, h1, h2⟩ := h.hi_lo
  rw [h1, h2]; exact lt_after_iff c v

theorem pt_le_of_lt {p : Item} (h : p.IsPt) (c : Cut) : p.lo < c ↔ p.hi ≤ c := by
  obtain ⟨v, h1, h2⟩ := h.hi_lo
  rw [h1, h2]; exact before_lt_iff c v

/-- A version with an adjacent range to its right: endless recursion. -/
theorem unionItem_bad {a b : Item} (hb : b.Normal) (h : BadPair a b) (lim : Nat) :
    Item.unionItem lim a b = .error .recursionError := by
  obtain ⟨hp, hr, hlo⟩ := h
  cases a with
  | range r => exact hp.elim
  | point v => cases b with
    | point w => exact absurd trivial hr
    | range s =>
      have hn : AllNormal [Item.point v, .range s] := by
        intro i hi
        simp only [List.mem_cons, List.not_mem_nil, or_false] at hi
        rcases hi with rfl | rfl
        · exact trivial
        · exact hb
      rw [point_hi] at hlo
      have hlt : cutAt v false < cutAt v true := (point_normal v).lo_lt_hi
      induction lim with
      | zero => simp [Item.unionItem]
      | succ lim ih =>
        have hc : (Item.range s).contains v = false := by
          rw [Bool.eq_false_iff, ne_eq, contains_iff, hlo]
          intro h; exact absurd hlt (not_lt_of_ge h.1)
        have hu : (Item.range s).isUniversal = false := by
          rw [Bool.eq_false_iff, ne_eq, isUniversal_iff hb]
          intro h; rw [h, universal_lo] at hlo; exact absurd hlo (bot_lt_cutAt _ _).ne
        have hs : VSet.sortItems [Item.point v, .range s] = [Item.point v, .range s] := by
          apply sortItems_eq hn
          rw [List.pairwise_pair]
          left; rw [hlo]; exact hlt
        have hcon : ((Item.point v).intersectsItem (.range s) || (Item.point v).isAdjacent (.range s)) = true := by
          rw [connected_iff (point_normal v) hb, point_lo, point_hi, hlo]
          refine ⟨?_, le_rfl⟩
          have := hb.lo_lt_hi
          rw [hlo] at this
          exact (hlt.trans this).le
        have hu' : (Item.point v).isUniversal = false := rfl
        simp only [Item.unionItem, hc, Bool.false_eq_true, if_false, VSet.mergeItems, List.isEmpty_cons, List.any_cons,
          List.any_nil, hu, hu', Bool.or_false, hs, VSet.mergeLoop, hcon, if_true, ih]
        rfl

theorem pts_connected {a b : Item} (ha : a.IsPt) (hb : b.IsPt) (h1 : a.lo ≤ b.lo) (h2 : b.lo ≤ a.hi) :
    b.lo = a.lo ∧ b.hi = a.hi := by
  obtain ⟨v, v1, v2⟩ := ha.hi_lo
  obtain ⟨w, w1, w2⟩ := hb.hi_lo
  rw [v2, w1, cutAt_le] at h2
  rw [v1, w1, cutAt_le] at h1
  have hk : w.key = v.key := by
    rcases h2 with h | h
    · rcases h1 with g | g
      · exact absurd h (not_lt_of_gt g)
      · exact g.1.symm
    · exact h.1
  rw [v1, v2, w1, w2, cutAt_eq, cutAt_eq]
  exact ⟨⟨hk, rfl⟩, hk, rfl⟩

theorem Item.IsPt.lo_lt_hi {p : Item} (h : p.IsPt) : p.lo < p.hi := by
  obtain ⟨v, v1, v2⟩ := h.hi_lo
  rw [v1, v2]; exact (point_normal v).lo_lt_hi

theorem Item.IsPt.lo_ne_hi {p q : Item} (hp : p.IsPt) (hq : q.IsPt) : p.lo ≠ q.hi := by
  obtain ⟨v, v1, v2⟩ := hp.hi_lo
  obtain ⟨w, w1, w2⟩ := hq.hi_lo
  rw [v1, w2, ne_eq, cutAt_eq]
  simp

/-- Joining the first two items does not change whether the list is bad. -/
theorem bad_join {last it j : Item} {rest : List Item} (ll : last.lo < last.hi) (li : it.lo < it.hi)
    (hle : last.lo ≤ it.lo) (hcon : it.lo ≤ last.hi) (hrest : ∀ x ∈ rest, it.lo ≤ x.lo)
    (hbad : ¬ BadPair last it) (jlo : j.lo = last.lo) (jhi : j.hi = max last.hi it.hi)
    (jpt : j.IsPt ↔ last.IsPt ∧ it.IsPt) : Bad (last :: it :: rest) ↔ Bad (j :: rest) := by
  have jlast : last.hi ≤ j.hi := by rw [jhi]; exact le_max_left _ _
  have jit : it.hi ≤ j.hi := by rw [jhi]; exact le_max_right _ _
  by_cases hjp : j.IsPt
  · obtain ⟨hlp, hip⟩ := jpt.1 hjp
    obtain ⟨hit, hith⟩ := pts_connected hlp hip hle hcon
    have hjh : j.hi = last.hi := by rw [jhi, hith, max_self]
    constructor
    · rintro ⟨p, hp, hpp, ⟨r, hr, hrr, hrlo⟩, hno⟩
      have hr' : r ∈ rest := by
        simp only [List.mem_cons] at hr
        rcases hr with rfl | rfl | hr
        · exact absurd hlp hrr
        · exact absurd hip hrr
        · exact hr
      have hno' : ∀ s ∈ j :: rest, ¬ s.IsPt → ¬ (s.lo ≤ p.lo ∧ p.lo ≤ s.hi) := by
        intro s hs' hsp
        rcases List.mem_cons.1 hs' with rfl | hs'
        · exact absurd hjp hsp
        · exact hno s (by simp [hs']) hsp
      simp only [List.mem_cons] at hp
      rcases hp with rfl | rfl | hp
      · refine ⟨j, by simp, hjp, ⟨r, by simp [hr'], hrr, hrlo.trans hjh.symm⟩, ?_⟩
        rw [jlo]; exact hno'
      · refine ⟨j, by simp, hjp, ⟨r, by simp [hr'], hrr, hrlo.trans (hith.trans hjh.symm)⟩, ?_⟩
        rw [jlo, ← hit]; exact hno'
      · exact ⟨p, by simp [hp], hpp, ⟨r, by simp [hr'], hrr, hrlo⟩, hno'⟩
    · rintro ⟨p, hp, hpp, ⟨r, hr, hrr, hrlo⟩, hno⟩
      have hr' : r ∈ rest := by
        rcases List.mem_cons.1 hr with rfl | hr
        · exact absurd hjp hrr
        · exact hr
      have hno' : ∀ s ∈ last :: it :: rest, ¬ s.IsPt → ¬ (s.lo ≤ p.lo ∧ p.lo ≤ s.hi) := by
        intro s hs' hsp
        simp only [List.mem_cons] at hs'
        rcases hs' with rfl | rfl | hs'
        · exact absurd hlp hsp
        · exact absurd hip hsp
        · exact hno s (by simp [hs']) hsp
      rcases List.mem_cons.1 hp with rfl | hp
      · refine ⟨last, by simp, hlp, ⟨r, by simp [hr'], hrr, hrlo.trans hjh⟩, ?_⟩
        rw [← jlo]; exact hno'
      · exact ⟨p, by simp [hp], hpp, ⟨r, by simp [hr'], hrr, hrlo⟩, hno'⟩
  · constructor
    · rintro ⟨p, hp, hpp, ⟨r, hr, hrr, hrlo⟩, hno⟩
      have hplh := hpp.lo_lt_hi
      have hr1 := hno last (by simp)
      have hr2 := hno it (by simp)
      have hp' : p ∈ rest := by
        simp only [List.mem_cons] at hp
        rcases hp with rfl | rfl | hp
        · exfalso
          have hip : ¬ it.IsPt := fun h => hjp (jpt.2 ⟨hpp, h⟩)
          have : ¬ it.lo = p.hi := fun h => hbad ⟨hpp, hip, h⟩
          exact hr2 hip ⟨(pt_lt_of_le hpp _).1 (lt_of_le_of_ne hcon this), by order⟩
        · have hlp : ¬ last.IsPt := fun h => hjp (jpt.2 ⟨h, hpp⟩)
          exact absurd ⟨hle, hcon⟩ (hr1 hlp)
        · exact hp
      have hpl := hrest p hp'
      have hr' : r ∈ rest := by
        simp only [List.mem_cons] at hr
        rcases hr with rfl | rfl | hr
        · order
        · order
        · exact hr
      refine ⟨p, by simp [hp'], hpp, ⟨r, by simp [hr'], hrr, hrlo⟩, ?_⟩
      intro s hs' hsp
      rcases List.mem_cons.1 hs' with rfl | hs'
      · rintro ⟨h1, h2⟩
        by_cases hlp : last.IsPt
        · have hip : ¬ it.IsPt := fun h => hjp (jpt.2 ⟨hlp, h⟩)
          have hil : it.lo ≤ last.lo := (pt_lt_of_le hlp _).1 (lt_of_le_of_ne hcon (fun h => hbad ⟨hlp, hip, h⟩))
          have : last.hi ≤ it.hi := (pt_le_of_lt hlp _).1 (by order)
          rw [jhi, max_eq_right this] at h2
          exact hr2 hip ⟨hpl, h2⟩
        · rcases le_total it.hi last.hi with g | g
          · rw [jhi, max_eq_left g] at h2
            exact hr1 hlp ⟨by order, h2⟩
          · rw [jhi, max_eq_right g] at h2
            by_cases hip : it.IsPt
            · have h3 : p.lo < it.hi := lt_of_le_of_ne h2 (hpp.lo_ne_hi hip)
              have h4 : p.lo ≤ it.lo := (pt_lt_of_le hip _).1 h3
              exact hr1 hlp ⟨by order, by order⟩
            · exact hr2 hip ⟨hpl, h2⟩
      · exact hno s (by simp [hs']) hsp
    · rintro ⟨p, hp, hpp, ⟨r, hr, hrr, hrlo⟩, hno⟩
      have hplh := hpp.lo_lt_hi
      have hp' : p ∈ rest := by
        rcases List.mem_cons.1 hp with rfl | hp
        · exact absurd hpp hjp
        · exact hp
      have hpl := hrest p hp'
      have hr' : r ∈ rest := by
        rcases List.mem_cons.1 hr with rfl | hr
        · order
        · exact hr
      refine ⟨p, by simp [hp'], hpp, ⟨r, by simp [hr'], hrr, hrlo⟩, ?_⟩
      have hnoj := hno j (by simp) hjp
      intro s hs' hsp
      simp only [List.mem_cons] at hs'
      rcases hs' with rfl | rfl | hs'
      · rintro ⟨h1, h2⟩; exact hnoj ⟨by order, by order⟩
      · rintro ⟨h1, h2⟩; exact hnoj ⟨by order, by order⟩
      · exact hno s (by simp [hs']) hsp

theorem bad_skip {last it : Item} {rest : List Item} (ll : last.lo < last.hi) (hcon : last.hi < it.lo)
    (hrest : ∀ x ∈ rest, it.lo ≤ x.lo) : Bad (last :: it :: rest) ↔ Bad (it :: rest) := by
  have hrest' : ∀ x ∈ it :: rest, it.lo ≤ x.lo := by
    intro x hx
    rcases List.mem_cons.1 hx with rfl | hx
    · exact le_rfl
    · exact hrest x hx
  constructor
  · rintro ⟨p, hp, hpp, ⟨r, hr, hrr, hrlo⟩, hno⟩
    have hplh := hpp.lo_lt_hi
    have hr' : r ∈ it :: rest := by
      rcases List.mem_cons.1 hr with rfl | hr
      · rcases List.mem_cons.1 hp with rfl | hp
        · exact absurd hpp hrr
        · have := hrest' p hp; order
      · exact hr
    have hrl := hrest' r hr'
    have hp' : p ∈ it :: rest := by
      rcases List.mem_cons.1 hp with rfl | hp
      · order
      · exact hp
    exact ⟨p, hp', hpp, ⟨r, hr', hrr, hrlo⟩, fun s hs => hno s (List.mem_cons_of_mem _ hs)⟩
  · rintro ⟨p, hp, hpp, ⟨r, hr, hrr, hrlo⟩, hno⟩
    refine ⟨p, List.mem_cons_of_mem _ hp, hpp, ⟨r, List.mem_cons_of_mem _ hr, hrr, hrlo⟩, ?_⟩
    intro s hs hsp
    rcases List.mem_cons.1 hs with rfl | hs
    · have := hrest' p hp
      rintro ⟨h1, h2⟩
      order
    · exact hno s hs hsp

theorem join_cov {last it j : Item} (hle : last.lo ≤ it.lo) (hcon : it.lo ≤ last.hi) (jlo : j.lo = last.lo)
    (jhi : j.hi = max last.hi it.hi) (c : Cut) :
    (j.lo ≤ c ∧ c < j.hi) ↔ (last.lo ≤ c ∧ c < last.hi) ∨ (it.lo ≤ c ∧ c < it.hi) := by
  rw [jlo, jhi, lt_sup_iff]
  constructor
  · rintro ⟨h1, h2⟩
    by_cases h : c < last.hi
    · exact .inl ⟨h1, h⟩
    · exact .inr ⟨by order, h2.resolve_left h⟩
  · rintro (⟨h1, h2⟩ | ⟨h1, h2⟩)
    · exact ⟨h1, .inl h2⟩
    · exact ⟨by order, .inr h2⟩

theorem or_join (l i m r : Prop) : ((l ∨ i) ∨ m) ∨ r ↔ (l ∨ m) ∨ i ∨ r := by tauto
theorem or_skip (l i m r : Prop) : (i ∨ l ∨ m) ∨ r ↔ (l ∨ m) ∨ i ∨ r := by tauto

/-- What the loop of `merge` computes. -/
theorem mergeLoop_spec (rest : List Item) : ∀ (last : Item) (merged : List Item),
    AllNormal (last :: rest) → (last :: rest).Pairwise (fun a b => a.lo ≤ b.lo) → AllNormal merged →
    (last :: merged).Pairwise (fun a b => b.hi < a.lo) →
    (¬ Bad (last :: rest) → ∃ out, (∀ lim, VSet.mergeLoop (Item.unionItem (lim + 1)) (last :: merged) rest = .ok out) ∧
      AllNormal out ∧ out.Pairwise (fun a b => b.hi < a.lo) ∧ out ≠ [] ∧
      ∀ c, Cov out c ↔ Cov (last :: merged) c ∨ Cov rest c) ∧
    (Bad (last :: rest) → ∀ lim, VSet.mergeLoop (Item.unionItem lim) (last :: merged) rest = .error .recursionError) := by
  induction rest with
  | nil =>
    intro last merged hn _ hm hg
    constructor
    · intro _
      refine ⟨last :: merged, fun lim => by simp [VSet.mergeLoop], ?_, hg, by simp, by simp⟩
      intro i hi
      rcases List.mem_cons.1 hi with rfl | hi
      · exact hn _ (by simp)
      · exact hm i hi
    · rintro ⟨p, hp, hpp, ⟨r, hr, hrr, -⟩, -⟩
      simp only [List.mem_singleton] at hp hr
      rw [hr, ← hp] at hrr
      exact absurd hpp hrr
  | cons it rest ih =>
    intro last merged hn hs hm hg
    have nl : last.Normal := hn _ (by simp)
    have ni : it.Normal := hn _ (by simp)
    have ll := nl.lo_lt_hi
    have li := ni.lo_lt_hi
    obtain ⟨hs1, hs2⟩ := List.pairwise_cons.1 hs
    obtain ⟨hrest, hs4⟩ := List.pairwise_cons.1 hs2
    have hle : last.lo ≤ it.lo := hs1 it (by simp)
    have nrest : AllNormal rest := fun x hx => hn x (by simp [hx])
    by_cases hcon : it.lo ≤ last.hi
    · -- connected
      have hc : (last.intersectsItem it || last.isAdjacent it) = true :=
        (connected_iff nl ni).2 ⟨(lt_of_le_of_lt hle li).le, hcon⟩
      by_cases hbad : BadPair last it
      · have hB : Bad (last :: it :: rest) := by
          refine ⟨last, by simp, hbad.1, ⟨it, by simp, hbad.2.1, hbad.2.2⟩, ?_⟩
          intro s hsm hsr ⟨h1, h2⟩
          simp only [List.mem_cons] at hsm
          have h3 := hbad.2.2
          rcases hsm with rfl | rfl | hsm
          · exact hsr hbad.1
          · order
          · have := hrest s hsm; order
        refine ⟨fun h => absurd hB h, fun _ lim => ?_⟩
        simp only [VSet.mergeLoop, hc, if_true, unionItem_bad ni hbad]
        rfl
      · have h3 : ¬ (last.IsPt ∧ ¬ it.IsPt ∧ (it.lo = last.hi ∨ it.hi = last.lo)) := by
          rintro ⟨h1, h2, h3 | h3⟩
          · exact hbad ⟨h1, h2, h3⟩
          · order
        obtain ⟨j, hj, nj, jlo, jhi, jpt⟩ := unionItem_connected nl ni (lt_of_le_of_lt hle li).le hcon h3
        rw [min_eq_left hle] at jlo
        have hBiff := bad_join ll li hle hcon hrest hbad jlo jhi jpt
        have hn' : AllNormal (j :: rest) := by
          intro x hx
          rcases List.mem_cons.1 hx with rfl | hx
          · exact nj
          · exact nrest x hx
        have hs' : (j :: rest).Pairwise (fun a b => a.lo ≤ b.lo) := by
          rw [List.pairwise_cons]
          refine ⟨?_, hs4⟩
          intro x hx
          rw [jlo]; exact hs1 x (by simp [hx])
        have hg' : (j :: merged).Pairwise (fun a b => b.hi < a.lo) := by
          obtain ⟨hg1, hg2⟩ := List.pairwise_cons.1 hg
          rw [List.pairwise_cons, jlo]
          exact ⟨hg1, hg2⟩
        obtain ⟨ih1, ih2⟩ := ih j merged hn' hs' hm hg'
        constructor
        · intro hB
          obtain ⟨out, ho1, ho2, ho3, ho4, ho5⟩ := ih1 (fun h => hB (hBiff.2 h))
          refine ⟨out, ?_, ho2, ho3, ho4, ?_⟩
          · intro lim
            simp only [VSet.mergeLoop, hc, if_true, hj]
            exact ho1 lim
          · intro c
            rw [ho5 c]
            simp only [cov_cons, join_cov hle hcon jlo jhi c]
            exact or_join _ _ _ _
        · intro hB lim
          cases lim with
          | zero => simp only [VSet.mergeLoop, hc, if_true, Item.unionItem]; rfl
          | succ lim =>
            simp only [VSet.mergeLoop, hc, if_true, hj]
            exact ih2 (hBiff.1 hB) (lim + 1)
    · have hgap : last.hi < it.lo := not_le.1 hcon
      have hc : (last.intersectsItem it || last.isAdjacent it) = false := by
        rw [Bool.eq_false_iff, ne_eq, connected_iff nl ni]
        exact fun h => hcon h.2
      have hBiff := bad_skip ll hgap hrest
      have hm' : AllNormal (last :: merged) := by
        intro x hx
        rcases List.mem_cons.1 hx with rfl | hx
        · exact nl
        · exact hm x hx
      have hg' : (it :: last :: merged).Pairwise (fun a b => b.hi < a.lo) := by
        rw [List.pairwise_cons]
        refine ⟨?_, hg⟩
        intro x hx
        rcases List.mem_cons.1 hx with rfl | hx
        · exact hgap
        · have := (List.pairwise_cons.1 hg).1 x hx
          order
      obtain ⟨ih1, ih2⟩ := ih it (last :: merged) (fun x hx => hn x (List.mem_cons_of_mem _ hx)) hs2 hm' hg'
      constructor
      · intro hB
        obtain ⟨out, ho1, ho2, ho3, ho4, ho5⟩ := ih1 (fun h => hB (hBiff.2 h))
        refine ⟨out, ?_, ho2, ho3, ho4, ?_⟩
        · intro lim
          simp only [VSet.mergeLoop, hc, Bool.false_eq_true, if_false]
          exact ho1 lim
        · intro c
          rw [ho5 c]
          simp only [cov_cons]
          exact or_skip _ _ _ _
      · intro hB lim
        simp only [VSet.mergeLoop, hc, Bool.false_eq_true, if_false]
        exact ih2 (hBiff.1 hB) lim

/-- `merge`: exact, normal, and the only failure is endless recursion. -/
theorem mergeItems_spec {l : List Item} (hn : AllNormal l) :
    (¬ Bad l → ∃ s, (∀ lim, VSet.mergeItems (Item.unionItem (lim + 1)) l = .ok s) ∧ s.Normal ∧
      ∀ c, Cov s.extract c ↔ Cov l c) ∧
    (Bad l → ∀ lim, VSet.mergeItems (Item.unionItem lim) l = .error .recursionError) := by
  by_cases he : l = []
  · subst he
    refine ⟨fun _ => ⟨.empty, fun lim => rfl, trivial, fun c => Iff.rfl⟩, ?_⟩
    rintro ⟨p, hp, -⟩
    cases hp
  · have he' : l.isEmpty = false := by simpa using he
    by_cases hu : l.any Item.isUniversal = true
    · have hmem : universalItem ∈ l := by
        obtain ⟨i, hi, hi'⟩ := List.any_eq_true.1 hu
        rw [isUniversal_iff (hn i hi)] at hi'
        exact hi' ▸ hi
      refine ⟨fun _ => ⟨VSet.universal, ?_, universal_normal, ?_⟩, ?_⟩
      · intro lim
        simp only [VSet.mergeItems, he', hu, Bool.false_eq_true, if_false, if_true]
      · intro c
        constructor
        · rintro ⟨i, hi, h⟩
          simp only [VSet.universal, VSet.extract, List.mem_singleton] at hi
          exact ⟨i, hi ▸ hmem, h⟩
        · rintro ⟨i, hi, h1, h2⟩
          exact ⟨universalItem, by simp [VSet.universal, VSet.extract], bot_le, lt_of_lt_of_le h2 le_top⟩
      · rintro ⟨p, hp, hpp, -, hno⟩
        exact absurd ⟨bot_le, le_top⟩ (hno universalItem hmem (fun h => h))
    · have hp := sortItems_perm l
      have hn' : AllNormal (VSet.sortItems l) := fun i hi => hn i (hp.mem_iff.1 hi)
      have hsort := (sortItems_sorted hn).imp (fun {a b} (h : SortLe a b) => h.lo_le)
      have hu' : l.any Item.isUniversal = false := by simpa using hu
      simp only [VSet.mergeItems, he', hu', Bool.false_eq_true, if_false]
      rw [← Bad.perm hp]
      have hcov := fun c => cov_perm hp c
      cases hl : VSet.sortItems l with
      | nil => rw [hl] at hp; exact absurd hp.symm.eq_nil he
      | cons last rest =>
        rw [hl] at hn' hsort hcov
        obtain ⟨h1, h2⟩ := mergeLoop_spec rest last [] hn' hsort (fun i hi => by cases hi) (by simp)
        simp only [VSet.mergeLoop]
        constructor
        · intro hB
          obtain ⟨out, ho1, ho2, ho3, ho4, ho5⟩ := h1 hB
          have hrev : AllNormal out.reverse := fun i hi => ho2 i (List.mem_reverse.1 hi)
          have hgap : Gaps out.reverse := by
            unfold Gaps; rw [List.pairwise_reverse]; exact ho3
          refine ⟨ofItems out.reverse, ?_, normal_ofItems hrev hgap, ?_⟩
          · intro lim
            rw [ho1 lim]
            match out, ho4 with
            | [i], _ => rfl
            | a :: b :: out, _ =>
              obtain ⟨x, y, zs, h⟩ : ∃ x y zs, (a :: b :: out).reverse = x :: y :: zs := by
                match hr : (a :: b :: out).reverse with
                | [] => simp at hr
                | [x] => have := congrArg List.length hr; simp at this
                | x :: y :: zs => exact ⟨x, y, zs, rfl⟩
              show VSet.mkUnion (a :: b :: out).reverse = _
              rw [h]
              simp [VSet.mkUnion, ofItems]
          · intro c
            rw [extract_ofItems, cov_reverse, ho5 c, ← hcov c]
            simp
        · intro hB lim
          rw [h2 hB lim]
          rfl

theorem gaps_not_bad {l : List Item} (hn : AllNormal l) (hg : Gaps l) : ¬ Bad l := by
  rintro ⟨p, hp, hpp, ⟨r, hr, hrr, hrlo⟩, -⟩
  have h1 := (hn p hp).lo_lt_hi
  have h2 := (hn r hr).lo_lt_hi
  unfold Gaps at hg
  have hne : p ≠ r := fun h => hrr (h ▸ hpp)
  rcases List.pairwise_iff_getElem.1 hg with hg'
  obtain ⟨i, hi, rfl⟩ := List.mem_iff_getElem.1 hp
  obtain ⟨j, hj, rfl⟩ := List.mem_iff_getElem.1 hr
  rcases Nat.lt_trichotomy i j with h | h | h
  · have := hg' i j hi hj h; order
  · subst h; exact hne rfl
  · have := hg' j i hj hi h; order

/-- A list already in normal form is left alone, whatever `union` does. -/
theorem mergeItems_gaps {l : List Item} (hn : AllNormal l) (hg : Gaps l) (union : Item → Item → Except PyErr VSet) :
    VSet.mergeItems union l = .ok (ofItems l) := by
  by_cases he : l = []
  · subst he; rfl
  · have he' : l.isEmpty = false := by simpa using he
    by_cases hu : l.any Item.isUniversal = true
    · obtain ⟨i, hi, hi'⟩ := List.any_eq_true.1 hu
      rw [isUniversal_iff (hn i hi)] at hi'
      subst hi'
      simp only [VSet.mergeItems, he', hu, Bool.false_eq_true, if_false, if_true]
      match l, hi, hg with
      | [x], hi, _ => simp at hi; subst hi; rfl
      | a :: b :: l, hi, hg =>
        exfalso
        obtain ⟨h1, h2⟩ := List.pairwise_cons.1 hg
        rcases List.mem_cons.1 hi with h | h
        · have := h1 b (by simp)
          rw [← h, universal_hi] at this
          exact absurd this not_top_lt
        · have := h1 _ h
          rw [universal_lo] at this
          exact absurd this not_lt_bot
    · have hu' : l.any Item.isUniversal = false := by simpa using hu
      have hsort : VSet.sortItems l = l := by
        apply sortItems_eq hn
        refine hg.imp_of_mem ?_
        intro a b ha hb h
        have := (hn a ha).lo_lt_hi
        left; order
      have hloop : ∀ (rest : List Item) (last : Item) (merged : List Item), AllNormal (last :: rest) → Gaps (last :: rest) →
          VSet.mergeLoop union (last :: merged) rest = .ok (rest.reverse ++ last :: merged) := by
        intro rest
        induction rest with
        | nil => intro last merged _ _; simp [VSet.mergeLoop]
        | cons it rest ih =>
          intro last merged hn hg
          obtain ⟨h1, h2⟩ := List.pairwise_cons.1 hg
          have hc : (last.intersectsItem it || last.isAdjacent it) = false := by
            rw [Bool.eq_false_iff, ne_eq, connected_iff (hn _ (by simp)) (hn _ (by simp))]
            exact fun h => absurd (h1 it (by simp)) (not_lt_of_ge h.2)
          simp only [VSet.mergeLoop, hc, Bool.false_eq_true, if_false]
          rw [ih it _ (fun x hx => hn x (List.mem_cons_of_mem _ hx)) h2]
          simp
      simp only [VSet.mergeItems, he', hu', Bool.false_eq_true, if_false, hsort]
      match l, hn, hg with
      | [], _, _ => exact absurd rfl he
      | [i], _, _ => rfl
      | a :: b :: l, hn, hg =>
        have hl : VSet.mergeLoop union [] (a :: b :: l) = .ok ((b :: l).reverse ++ [a]) := by
          rw [VSet.mergeLoop, hloop (b :: l) a [] hn hg]
        rw [hl]
        show (match (b :: l).reverse ++ [a] with | [i] => Except.ok (VSet.item i) | merged => VSet.mkUnion merged.reverse) = _
        obtain ⟨x, y, zs, h⟩ : ∃ x y zs, (b :: l).reverse ++ [a] = x :: y :: zs := by
          match hr : (b :: l).reverse ++ [a] with
          | [] => simp at hr
          | [x] => have := congrArg List.length hr; simp at this
          | x :: y :: zs => exact ⟨x, y, zs, rfl⟩
        have h' : (x :: y :: zs).reverse = a :: b :: l := by rw [← h]; simp
        rw [h]
        show VSet.mkUnion (x :: y :: zs).reverse = _
        rw [h']
        simp [VSet.mkUnion, ofItems]

end Verif
