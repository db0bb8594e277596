import Verif.Proofs.Cuts
import Mathlib.Tactic.Order
/-!
# Operations on single items, as operations on intervals of cuts
-/
set_option linter.unusedSimpArgs false

namespace Verif
open scoped Verif

theorem lt_after_iff (c : Cut) (v : Version) : c < cutAt v true ↔ c ≤ cutAt v false := by
  cases c using WithBot.recBotCoe with
  | bot => simp [bot_lt_cutAt]
  | coe c => cases c using WithTop.recTopCoe with
    | top =>
      exact ⟨fun h => absurd h (not_lt_of_gt (cutAt_lt_top v true)),
        fun h => absurd h (not_le_of_gt (cutAt_lt_top v false))⟩
    | coe c =>
      simp only [cutAt, WithBot.coe_lt_coe, WithTop.coe_lt_coe, WithBot.coe_le_coe, WithTop.coe_le_coe]
      obtain ⟨k, b⟩ := c
      show toLex (k, b) < _ ↔ toLex (k, b) ≤ _
      rw [Prod.Lex.toLex_lt_toLex, Prod.Lex.toLex_le_toLex]
      cases b <;> simp

theorem before_lt_iff (c : Cut) (v : Version) : cutAt v false < c ↔ cutAt v true ≤ c := by
  have := lt_after_iff c v
  rw [← not_le, ← not_lt (a := c), this]

/-- Not exactly one version. -/
def Wide (lo hi : Cut) : Prop := ∀ v, ¬ (lo = cutAt v false ∧ hi = cutAt v true)

theorem Wide.mono {lo hi lo' hi' : Cut} (h : Wide lo hi) (hlt : lo < hi) (h1 : lo' ≤ lo) (h2 : hi ≤ hi') : Wide lo' hi' := by
  rintro v ⟨rfl, rfl⟩
  have h3 : lo ≤ cutAt v false := (lt_after_iff _ _).1 (lt_of_lt_of_le hlt h2)
  have h4 : cutAt v true ≤ hi := (before_lt_iff _ _).1 (lt_of_le_of_lt h1 hlt)
  exact h v ⟨le_antisymm h3 h1, le_antisymm h2 h4⟩

theorem wide_some_iff {x y : Version} {a b : Bool} (h : loOf (some x) a < hiOf (some y) b) :
    Wide (loOf (some x) a) (hiOf (some y) b) ↔ x.key < y.key := by
  simp only [loOf, hiOf, cutAt_lt] at h
  unfold Wide
  simp only [loOf, hiOf, cutAt_eq]
  constructor
  · intro hw
    rcases h with h | ⟨h1, h2, h3⟩
    · exact h
    · exact absurd ⟨⟨rfl, h2⟩, h1.symm, h3⟩ (hw x)
  · rintro hlt v ⟨⟨h1, -⟩, h2, -⟩
    rw [h1, h2] at hlt
    exact lt_irrefl _ hlt

theorem normal_range_iff (r : VRange) :
    (Item.range r).Normal ↔ (Item.range r).EndsOk ∧ (Item.range r).lo < (Item.range r).hi ∧
      Wide (Item.range r).lo (Item.range r).hi := by
  obtain ⟨mn, mx, imn, imx⟩ := r
  constructor
  · intro h
    have h1 := h.lo_lt_hi
    refine ⟨h.endsOk, h1, ?_⟩
    simp only [Item.lo, Item.hi, Item.min, Item.max, Item.includeMin, Item.includeMax, Item.fields] at *
    cases mn with
    | none => rintro v ⟨h2, -⟩; exact absurd h2 (bot_lt_cutAt v false).ne
    | some x => cases mx with
      | none => rintro v ⟨-, h2⟩; exact absurd h2 (cutAt_lt_top v true).ne'
      | some y => exact (wide_some_iff h1).2 ((vlt_iff _ _).1 (h.2.2 x y rfl rfl))
  · rintro ⟨⟨h1, h2⟩, h3, h4⟩
    refine ⟨h1, h2, ?_⟩
    rintro x y hx hy
    simp only at hx hy
    subst hx hy
    exact (vlt_iff _ _).2 ((wide_some_iff h3).1 h4)

theorem normal_wide {r : VRange} (h : (Item.range r).Normal) : Wide (Item.range r).lo (Item.range r).hi :=
  ((normal_range_iff r).1 h).2.2

@[simp] theorem point_lo (v : Version) : (Item.point v).lo = cutAt v false := rfl
@[simp] theorem point_hi (v : Version) : (Item.point v).hi = cutAt v true := rfl
theorem point_normal (v : Version) : (Item.point v).Normal := trivial
theorem point_ends (v : Version) : (Item.point v).EndsOk := (point_normal v).endsOk

/-- The constructor succeeds on non-empty intervals. -/
theorem mkRange_ok {mn mx : Option Version} {a b : Bool} (h1 : mn = none → a = false) (h2 : mx = none → b = false)
    (h : loOf mn a < hiOf mx b) : Item.mkRange mn mx a b = .ok (.range ⟨mn, mx, a, b⟩) := by
  unfold Item.mkRange
  have e1 : (mn.isNone && a) = false := by
    cases mn with
    | none => simp [h1 rfl]
    | some x => simp
  have e2 : (mx.isNone && b) = false := by
    cases mx with
    | none => simp [h2 rfl]
    | some x => simp
  have e3 : PyCmp.gt (Item.range ⟨mn, mx, a, b⟩).comparableMin (Item.range ⟨mn, mx, a, b⟩).comparableMax = false := by
    rw [Bool.eq_false_iff, ne_eq, egt_iff]
    unfold Item.comparableMin Item.comparableMax
    simp only [Item.min, Item.max, Item.fields]
    cases mn with
    | none => cases mx with
      | none => exact not_lt_of_gt (extKey_negInf_lt_posInf _)
      | some y => exact not_lt_of_gt (extKey_negInf_lt_fin _ _)
    | some x => cases mx with
      | none => exact not_lt_of_gt (extKey_fin_lt_posInf _ _)
      | some y =>
        simp only [loOf, hiOf, cutAt_lt] at h
        rw [ext_fin_lt]
        rcases h with h | h
        · exact not_lt_of_gt h
        · rw [h.1]; exact lt_irrefl _
  simp [e1, e2, e3]

theorem mkRange_normal {mn mx : Option Version} {a b : Bool} (h1 : mn = none → a = false) (h2 : mx = none → b = false)
    (h : loOf mn a < hiOf mx b) (hw : Wide (loOf mn a) (hiOf mx b)) : (Item.range ⟨mn, mx, a, b⟩).Normal :=
  (normal_range_iff _).2 ⟨⟨h1, h2⟩, h, hw⟩

/-! ### Equality and order -/

theorem item_eq_iff {a b : Item} (ha : a.EndsOk) (hb : b.EndsOk) : a.eq b = true ↔ a.lo = b.lo ∧ a.hi = b.hi := by
  unfold Item.eq Item.lo Item.hi
  obtain ⟨ha1, ha2⟩ := ha
  obtain ⟨hb1, hb2⟩ := hb
  have hmin : (optEq a.min b.min = true ∧ (a.includeMin == b.includeMin) = true) ↔
      loOf a.min a.includeMin = loOf b.min b.includeMin := by
    cases hm : a.min <;> cases hn : b.min
    · simp [optEq, ha1 hm, hb1 hn, loOf]
    · rename_i y; simp [optEq, loOf, (bot_lt_cutAt y _).ne]
    · rename_i y; simp [optEq, loOf, (bot_lt_cutAt y _).ne']
    · simp [optEq_some, loOf, cutAt_eq]
  have hmax : (optEq a.max b.max = true ∧ (a.includeMax == b.includeMax) = true) ↔
      hiOf a.max a.includeMax = hiOf b.max b.includeMax := by
    cases hm : a.max <;> cases hn : b.max
    · simp [optEq, ha2 hm, hb2 hn, hiOf]
    · rename_i y; simp [optEq, hiOf, (cutAt_lt_top y _).ne']
    · rename_i y; simp [optEq, hiOf, (cutAt_lt_top y _).ne]
    · simp [optEq_some, hiOf, cutAt_eq]
  rw [← hmin, ← hmax]
  simp only [Bool.and_eq_true]
  tauto

theorem compare_eq (a b : Item) : a.compare b = if a.isLower b then .lt else if b.isLower a then .gt else
    if a.isHigher b then .gt else if b.isHigher a then .lt else .eq := by
  unfold Item.compare Item.isLower Item.isHigher Item.excludeMin Item.excludeMax
  simp only [elt_iff, egt_iff]
  rcases lt_trichotomy (extKey Version.key a.comparableMin) (extKey Version.key b.comparableMin) with h | h | h
  · simp [h, not_lt_of_gt h, h.le, not_le_of_gt h]
  · simp only [h, lt_irrefl, if_false]
    cases a.includeMin <;> cases b.includeMin <;> simp
    all_goals
      rcases lt_trichotomy (extKey Version.key a.comparableMax) (extKey Version.key b.comparableMax) with h | h | h
      · simp [h, not_lt_of_gt h, h.le, not_le_of_gt h]
      · simp only [h, lt_irrefl, if_false]
        cases a.includeMax <;> cases b.includeMax <;> simp
      · simp [h, not_lt_of_gt h, h.le, not_le_of_gt h]
  · simp [h, not_lt_of_gt h, h.le, not_le_of_gt h]

theorem compare_lt_iff {a b : Item} (ha : a.EndsOk) (hb : b.EndsOk) :
    a.compare b = .lt ↔ a.lo < b.lo ∨ a.lo = b.lo ∧ a.hi < b.hi := by
  have h1 := isLower_iff ha hb
  have h2 := isLower_iff hb ha
  have h3 := isHigher_iff ha hb
  have h4 := isHigher_iff hb ha
  rw [compare_eq]
  rcases lt_trichotomy a.lo b.lo with h | h | h
  · simp [h1.2 h, h]
  · have e1 : a.isLower b = false := by rw [Bool.eq_false_iff, ne_eq, h1, h]; exact lt_irrefl _
    have e2 : b.isLower a = false := by rw [Bool.eq_false_iff, ne_eq, h2, h]; exact lt_irrefl _
    rcases lt_trichotomy a.hi b.hi with g | g | g
    · have e3 : a.isHigher b = false := by rw [Bool.eq_false_iff, ne_eq, h3]; exact not_lt_of_gt g
      simp [e1, e2, e3, h4.2 g, h, g]
    · have e3 : a.isHigher b = false := by rw [Bool.eq_false_iff, ne_eq, h3, g]; exact lt_irrefl _
      have e4 : b.isHigher a = false := by rw [Bool.eq_false_iff, ne_eq, h4, g]; exact lt_irrefl _
      simp [e1, e2, e3, e4, h, g]
    · simp [e1, e2, h3.2 g, h, not_lt_of_gt g]
  · have e1 : a.isLower b = false := by rw [Bool.eq_false_iff, ne_eq, h1]; exact not_lt_of_gt h
    simp [e1, h2.2 h, not_lt_of_gt h, h.ne']

theorem compare_gt_iff {a b : Item} (ha : a.EndsOk) (hb : b.EndsOk) :
    a.compare b = .gt ↔ b.lo < a.lo ∨ a.lo = b.lo ∧ b.hi < a.hi := by
  have h1 := isLower_iff ha hb
  have h2 := isLower_iff hb ha
  have h3 := isHigher_iff ha hb
  have h4 := isHigher_iff hb ha
  rw [compare_eq]
  rcases lt_trichotomy a.lo b.lo with h | h | h
  · simp [h1.2 h, not_lt_of_gt h, h.ne]
  · have e1 : a.isLower b = false := by rw [Bool.eq_false_iff, ne_eq, h1, h]; exact lt_irrefl _
    have e2 : b.isLower a = false := by rw [Bool.eq_false_iff, ne_eq, h2, h]; exact lt_irrefl _
    rcases lt_trichotomy a.hi b.hi with g | g | g
    · have e3 : a.isHigher b = false := by rw [Bool.eq_false_iff, ne_eq, h3]; exact not_lt_of_gt g
      simp [e1, e2, e3, h4.2 g, h, not_lt_of_gt g]
    · have e3 : a.isHigher b = false := by rw [Bool.eq_false_iff, ne_eq, h3, g]; exact lt_irrefl _
      have e4 : b.isHigher a = false := by rw [Bool.eq_false_iff, ne_eq, h4, g]; exact lt_irrefl _
      simp [e1, e2, e3, e4, h, g]
    · simp [e1, e2, h3.2 g, h, g]
  · have e1 : a.isLower b = false := by rw [Bool.eq_false_iff, ne_eq, h1]; exact not_lt_of_gt h
    simp [e1, h2.2 h, h]

theorem item_lt_iff {a b : Item} (ha : a.EndsOk) (hb : b.EndsOk) :
    a.lt b = true ↔ a.lo < b.lo ∨ a.lo = b.lo ∧ a.hi < b.hi := by
  rw [← compare_lt_iff ha hb]; simp [Item.lt]

/-! ### intersects, includes -/

theorem intersectsItem_iff {a b : Item} (ha : a.Normal) (hb : b.Normal) :
    a.intersectsItem b = true ↔ a.lo < b.hi ∧ b.lo < a.hi := by
  cases a with
  | range r => cases b with
    | range s =>
      have h1 := isStrictlyLower_iff hb.endsOk ha.endsOk
      have h2 := isStrictlyHigher_iff hb.endsOk ha.endsOk
      simp only [Item.intersectsItem, Bool.and_eq_true, Bool.not_eq_true', Bool.eq_false_iff, ne_eq, h1, h2, not_le]
    | point v =>
      simp only [Item.intersectsItem, contains_iff, point_lo, point_hi, lt_after_iff, cut]
  | point v =>
    simp only [Item.intersectsItem, contains_iff, point_lo, point_hi, lt_after_iff, cut]
    tauto

theorem isEmpty_false {i : Item} (h : i.Normal) : i.isEmpty = false := by
  cases i with
  | point v => rfl
  | range r =>
    have h1 : ¬ ((Item.range r).isEmptyOrPoint = true) := by
      rw [Item.isEmptyOrPoint, eeq_iff]
      unfold Item.comparableMin Item.comparableMax
      cases hm : (Item.range r).min <;> cases hn : (Item.range r).max
      · exact (extKey_negInf_lt_posInf _).ne
      · exact (extKey_negInf_lt_fin _ _).ne
      · exact (extKey_fin_lt_posInf _ _).ne
      · rw [ext_fin_eq]; exact ((vlt_iff _ _).1 (h.2.2 _ _ hm hn)).ne
    simp [Item.isEmpty, h1]

theorem isPoint_range_false {r : VRange} (h : (Item.range r).Normal) : (Item.range r).isPoint = false := by
  have h1 : ¬ ((Item.range r).isEmptyOrPoint = true) := by
    rw [Item.isEmptyOrPoint, eeq_iff]
    unfold Item.comparableMin Item.comparableMax
    cases hm : (Item.range r).min <;> cases hn : (Item.range r).max
    · exact (extKey_negInf_lt_posInf _).ne
    · exact (extKey_negInf_lt_fin _ _).ne
    · exact (extKey_fin_lt_posInf _ _).ne
    · rw [ext_fin_eq]; exact ((vlt_iff _ _).1 (h.2.2 _ _ hm hn)).ne
  simp [Item.isPoint, h1]

theorem includesItem_iff {a b : Item} (ha : a.Normal) (hb : b.Normal) :
    a.includesItem b = true ↔ a.lo ≤ b.lo ∧ b.hi ≤ a.hi := by
  cases a with
  | range r => cases b with
    | range s =>
      have h1 := isLower_iff hb.endsOk ha.endsOk
      have h2 := isHigher_iff hb.endsOk ha.endsOk
      simp only [Item.includesItem, Bool.and_eq_true, Bool.not_eq_true', Bool.eq_false_iff, ne_eq, h1, h2, not_lt]
    | point v =>
      simp only [Item.includesItem, contains_iff, point_lo, point_hi, cut, before_lt_iff]
  | point v => cases b with
    | range s =>
      simp only [Item.includesItem, isEmpty_false hb, Bool.false_eq_true, point_lo, point_hi, false_iff]
      rintro ⟨h1, h2⟩
      exact ((normal_wide hb).mono hb.lo_lt_hi h1 h2) v ⟨rfl, rfl⟩
    | point w =>
      simp only [Item.includesItem, Item.isEmpty, Item.contains, Bool.false_or, veq_iff, point_lo, point_hi, cutAt_le]
      constructor
      · intro h; simp [h]
      · rintro ⟨h1, h2⟩
        rcases h1 with h1 | h1
        · rcases h2 with h2 | h2
          · exact absurd h1 (not_lt_of_gt h2)
          · exact h2.1.symm
        · exact h1.1

/-! ### intersection -/

theorem lo_eq_loOf (i : Item) : i.lo = loOf i.min i.includeMin := rfl
theorem hi_eq_hiOf (i : Item) : i.hi = hiOf i.max i.includeMax := rfl

theorem intersectionItem_spec {a b : Item} (ha : a.Normal) (hb : b.Normal) :
    (a.lo < b.hi ∧ b.lo < a.hi ∧ ∃ i, a.intersectionItem b = .ok (.item i) ∧ i.Normal ∧
        i.lo = max a.lo b.lo ∧ i.hi = min a.hi b.hi) ∨
      (¬ (a.lo < b.hi ∧ b.lo < a.hi) ∧ a.intersectionItem b = .ok .empty) := by
  have hpoint : ∀ (v : Version) (c : Item), c.Normal → ((c.contains v = true ∧ cutAt v false < c.hi ∧ c.lo < cutAt v true ∧
      cutAt v false = max c.lo (cutAt v false) ∧ cutAt v true = min c.hi (cutAt v true)) ∨
      (c.contains v = false ∧ ¬ (cutAt v false < c.hi ∧ c.lo < cutAt v true))) := by
    intro v c hc
    by_cases h : c.contains v = true
    · left
      have h' := (contains_iff v).1 h
      refine ⟨h, h'.2, (lt_after_iff _ _).2 h'.1, (max_eq_right h'.1).symm, (min_eq_right ((before_lt_iff _ _).1 h'.2)).symm⟩
    · right
      refine ⟨by simpa using h, ?_⟩
      rintro ⟨h1, h2⟩
      exact h ((contains_iff v).2 ⟨(lt_after_iff _ _).1 h2, h1⟩)
  cases a with
  | point v =>
    rcases hpoint v b hb with ⟨h1, h2, h3, h4, h5⟩ | ⟨h1, h2⟩
    · left
      refine ⟨h2, h3, .point v, ?_, trivial, ?_, ?_⟩
      · cases b <;> simp [Item.intersectionItem, h1]
      · rw [point_lo, max_comm]; exact h4
      · rw [point_hi, min_comm]; exact h5
    · right
      exact ⟨h2, by cases b <;> simp [Item.intersectionItem, h1]⟩
  | range r => cases b with
    | point v =>
      rcases hpoint v _ ha with ⟨h1, h2, h3, h4, h5⟩ | ⟨h1, h2⟩
      · left
        exact ⟨h3, h2, .point v, by simp [Item.intersectionItem, h1], trivial, h4, h5⟩
      · right
        exact ⟨fun h => h2 ⟨h.2, h.1⟩, by simp [Item.intersectionItem, h1]⟩
    | range s =>
      have e1 := isLower_iff ha.endsOk hb.endsOk
      have e2 := isHigher_iff ha.endsOk hb.endsOk
      have e3 := isStrictlyLower_iff ha.endsOk hb.endsOk
      have e4 := isStrictlyHigher_iff ha.endsOk hb.endsOk
      have la := ha.lo_lt_hi
      have lb := hb.lo_lt_hi
      have wa := normal_wide ha
      have wb := normal_wide hb
      by_cases hint : (Item.range r).lo < (Item.range s).hi ∧ (Item.range s).lo < (Item.range r).hi
      · left
        refine ⟨hint.1, hint.2, ?_⟩
        have c1 : ((Item.range r).isLower (.range s) && (Item.range r).isStrictlyLower (.range s)) = false := by
          rw [Bool.eq_false_iff, ne_eq, Bool.and_eq_true, e3]
          rintro ⟨-, h⟩; exact absurd hint.2 (not_lt_of_ge h)
        have c2 : (!(Item.range r).isLower (.range s) && (Item.range r).isStrictlyHigher (.range s)) = false := by
          rw [Bool.eq_false_iff, ne_eq, Bool.and_eq_true, e4]
          rintro ⟨-, h⟩; exact absurd hint.1 (not_lt_of_ge h)
        simp only [Item.intersectionItem, c1, c2, Bool.false_eq_true, if_false]
        -- the chosen ends
        have hlo : ∃ mn imn, (if (Item.range r).isLower (.range s) = true then ((Item.range s).min, (Item.range s).includeMin)
            else ((Item.range r).min, (Item.range r).includeMin)) = (mn, imn) ∧ (mn = none → imn = false) ∧
            loOf mn imn = max (Item.range r).lo (Item.range s).lo := by
          by_cases h : (Item.range r).lo < (Item.range s).lo
          · exact ⟨_, _, by rw [if_pos (e1.2 h)], hb.endsOk.1, (max_eq_right h.le).symm⟩
          · exact ⟨_, _, by rw [if_neg (fun h' => h (e1.1 h'))], ha.endsOk.1, (max_eq_left (not_lt.1 h)).symm⟩
        have hhi : ∃ mx imx, (if (Item.range r).isHigher (.range s) = true then ((Item.range s).max, (Item.range s).includeMax)
            else ((Item.range r).max, (Item.range r).includeMax)) = (mx, imx) ∧ (mx = none → imx = false) ∧
            hiOf mx imx = min (Item.range r).hi (Item.range s).hi := by
          by_cases h : (Item.range s).hi < (Item.range r).hi
          · exact ⟨_, _, by rw [if_pos (e2.2 h)], hb.endsOk.2, (min_eq_right h.le).symm⟩
          · exact ⟨_, _, by rw [if_neg (fun h' => h (e2.1 h'))], ha.endsOk.2, (min_eq_left (not_lt.1 h)).symm⟩
        obtain ⟨mn, imn, g1, g2, g3⟩ := hlo
        obtain ⟨mx, imx, k1, k2, k3⟩ := hhi
        rw [g1, k1]
        have hlt : loOf mn imn < hiOf mx imx := by
          rw [g3, k3]
          exact lt_min (max_lt la hint.2) (max_lt hint.1 lb)
        simp only [mkRange_ok g2 k2 hlt, bind, Except.bind]
        by_cases hw : Wide (loOf mn imn) (hiOf mx imx)
        · have hn := mkRange_normal g2 k2 hlt hw
          rw [isPoint_range_false hn]
          exact ⟨_, rfl, hn, g3, k3⟩
        · -- a single version
          have hx : ∃ x y, mn = some x ∧ mx = some y ∧ imn = true ∧ imx = true ∧ x.key = y.key := by
            simp only [Wide, not_forall, not_not] at hw
            obtain ⟨v, h1, h2⟩ := hw
            cases mn with
            | none => exact absurd h1 (bot_lt_cutAt _ _).ne
            | some x => cases mx with
              | none => exact absurd h2 (cutAt_lt_top _ _).ne'
              | some y =>
                simp only [loOf, hiOf, cutAt_eq] at h1 h2
                exact ⟨x, y, rfl, rfl, by simpa using h1.2, h2.2, h1.1.trans h2.1.symm⟩
          obtain ⟨x, y, rfl, rfl, rfl, rfl, hxy⟩ := hx
          have hp : (Item.range ⟨some x, some y, true, true⟩).isPoint = true := by
            simp [Item.isPoint, Item.isEmptyOrPoint, Item.isClosed, Item.includeMin, Item.includeMax, Item.fields,
              Item.comparableMin, Item.comparableMax, Item.min, Item.max, eeq_iff, ext_fin_eq, hxy]
          refine ⟨.point x, ?_, trivial, ?_, ?_⟩
          · simp [hp, Item.version, Item.versionUnchecked, Item.min, Item.fields]
          · rw [← g3]; rfl
          · rw [← k3, point_hi]; simp [hiOf, cutAt_eq, hxy]
      · right
        refine ⟨hint, ?_⟩
        simp only [Item.intersectionItem]
        by_cases h : (Item.range r).lo < (Item.range s).lo
        · have : (Item.range r).hi ≤ (Item.range s).lo := by
            by_contra hc
            exact hint ⟨h.trans lb, not_le.1 hc⟩
          simp [e1.2 h, e3.2 this]
        · have h1 : (Item.range r).isLower (.range s) = false := by
            rw [Bool.eq_false_iff, ne_eq, e1]; exact h
          have : (Item.range s).hi ≤ (Item.range r).lo := by
            by_contra hc
            exact hint ⟨not_le.1 hc, lt_of_le_of_lt (not_lt.1 h) la⟩
          simp [h1, e4.2 this]

end Verif
