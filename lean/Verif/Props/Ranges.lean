import Verif.Model.RangePredicates
import Verif.Props.SetPredicates
/-!
# C76: what the predicates and relations of ranges say
-/

namespace Verif

theorem GoodCut.max {c d : Cut} (hc : GoodCut c) (hd : GoodCut d) : GoodCut (max c d) := by
  rcases le_total c d with h | h
  · rwa [max_eq_right h]
  · rwa [max_eq_left h]

theorem GoodCut.min {c d : Cut} (hc : GoodCut c) (hd : GoodCut d) : GoodCut (min c d) := by
  rcases le_total c d with h | h
  · rwa [min_eq_left h]
  · rwa [min_eq_right h]

theorem goodCut_at {v : Version} (h : v.Wf) (b : Bool) : GoodCut (cutAt v b) := .inr (.inr ⟨v, b, h, rfl⟩)

theorem cut_lt_iff (v w : Version) : cut v < cut w ↔ v <ₚ w := by simp [cut, cutAt_lt, vlt_iff]
theorem cut_le_iff (v w : Version) : cut v ≤ cut w ↔ v ≤ₚ w := by
  rw [← not_lt, cut_lt_iff, vlt_iff, vle_iff, not_lt]
theorem after_le_iff (v w : Version) : cutAt v true ≤ cut w ↔ v <ₚ w := by simp [cut, cutAt_le, vlt_iff]
theorem cut_lt_after_iff (v w : Version) : cut v < cutAt w true ↔ v ≤ₚ w := by
  rw [← not_le, after_le_iff, vlt_iff, vle_iff, not_lt]

namespace Item

variable {i a b : Item}

/-- In a range there is a version from a cut on. -/
theorem exists_above (hn : i.Normal) (hw : i.Wf) {c : Cut} (hc : GoodCut c) (h : c < i.hi) : ∃ v : Version, v.Wf ∧ i.Mem v ∧ c ≤ cut v := by
  obtain ⟨v, h1, h2, h3⟩ := exists_between (hw.lo.max hc) hw.hi (max_lt hn.lo_lt_hi h)
  exact ⟨v, h1, (mem_iff_cut i v).2 ⟨le_trans (le_max_left _ _) h2, h3⟩, le_trans (le_max_right _ _) h2⟩

theorem exists_below (hn : i.Normal) (hw : i.Wf) {c : Cut} (hc : GoodCut c) (h : i.lo < c) : ∃ v : Version, v.Wf ∧ i.Mem v ∧ cut v < c := by
  obtain ⟨v, h1, h2, h3⟩ := exists_between hw.lo (hw.hi.min hc) (lt_min hn.lo_lt_hi h)
  exact ⟨v, h1, (mem_iff_cut i v).2 ⟨h2, lt_of_lt_of_le h3 (min_le_left _ _)⟩, lt_of_lt_of_le h3 (min_le_right _ _)⟩

end Item

/-- The version is the least one in the range. -/
def Item.Least (i : Item) (v : Version) : Prop := i.Mem v ∧ ∀ w : Version, w.Wf → i.Mem w → v ≤ₚ w
/-- The version is the greatest one in the range. -/
def Item.Greatest (i : Item) (v : Version) : Prop := i.Mem v ∧ ∀ w : Version, w.Wf → i.Mem w → w ≤ₚ v
/-- No version in the range is below this one. -/
def Item.BoundedBelow (i : Item) : Prop := ∃ v : Version, v.Wf ∧ ∀ w : Version, w.Wf → i.Mem w → v ≤ₚ w
/-- No version in the range is above this one. -/
def Item.BoundedAbove (i : Item) : Prop := ∃ v : Version, v.Wf ∧ ∀ w : Version, w.Wf → i.Mem w → w ≤ₚ v
/-- Every version of `a` comes before every version of `b`. -/
def Item.AllBefore (a b : Item) : Prop := ∀ v w : Version, v.Wf → w.Wf → a.Mem v → b.Mem w → v <ₚ w

theorem left_closed_iff {i : Item} (hn : i.Normal) (hw : i.Wf) : i.includeMin = true ↔ ∃ v : Version, v.Wf ∧ i.Least v := by
  constructor
  · intro h
    cases hm : i.min with
    | none => rw [hn.endsOk.1 hm] at h; cases h
    | some v =>
      have hlo : i.lo = cut v := by unfold Item.lo loOf; rw [hm, h]; rfl
      have hlt := hn.lo_lt_hi
      refine ⟨v, hw.1 v hm, (mem_iff_cut i v).2 ⟨hlo.le, hlo ▸ hlt⟩, fun w _ h2 => ?_⟩
      rw [← cut_le_iff, ← hlo]
      exact ((mem_iff_cut i w).1 h2).1
  · rintro ⟨v, h1, h2, h3⟩
    by_contra hc
    have hc : i.includeMin = false := by simpa using hc
    obtain ⟨h4, h5⟩ := (mem_iff_cut i v).1 h2
    have hne : i.lo ≠ cut v := by
      unfold Item.lo loOf
      cases hm : i.min with
      | none => exact (bot_lt_cutAt _ _).ne
      | some m => rw [hc]; intro h; simpa using ((cutAt_eq _ _ _ _).1 h).2
    obtain ⟨w, w1, w2, w3⟩ := i.exists_below hn hw (goodCut_at h1 false) (lt_of_le_of_ne h4 hne)
    exact absurd ((cut_le_iff _ _).2 (h3 w w1 w2)) (not_le.2 w3)

theorem right_closed_iff {i : Item} (hn : i.Normal) (hw : i.Wf) : i.includeMax = true ↔ ∃ v : Version, v.Wf ∧ i.Greatest v := by
  constructor
  · intro h
    cases hm : i.max with
    | none => rw [hn.endsOk.2 hm] at h; cases h
    | some v =>
      have hhi : i.hi = cutAt v true := by unfold Item.hi hiOf; rw [hm, h]
      have hlt := hn.lo_lt_hi
      refine ⟨v, hw.2 v hm, (mem_iff_cut i v).2 ⟨?_, ?_⟩, fun w _ h2 => ?_⟩
      · rw [hhi] at hlt
        obtain ⟨w, -, w2, w3⟩ := exists_between hw.lo (goodCut_at (hw.2 v hm) true) hlt
        exact le_trans w2 ((cut_le_iff _ _).2 ((cut_lt_after_iff _ _).1 w3))
      · rw [hhi, cut_lt_after_iff, vle_iff]
      · rw [← cut_lt_after_iff, ← hhi]
        exact ((mem_iff_cut i w).1 h2).2
  · rintro ⟨v, h1, h2, h3⟩
    by_contra hc
    have hc : i.includeMax = false := by simpa using hc
    obtain ⟨h4, h5⟩ := (mem_iff_cut i v).1 h2
    have hlt : cutAt v true < i.hi := by
      unfold Item.hi hiOf at h5 ⊢
      cases hm : i.max with
      | none => exact cutAt_lt_top _ _
      | some m =>
        rw [hm, hc] at h5
        rw [hc]
        simp only [cut, cutAt_lt] at h5 ⊢
        simpa using h5
    obtain ⟨w, w1, w2, w3⟩ := i.exists_above hn hw (goodCut_at h1 true) hlt
    rw [after_le_iff, vlt_iff] at w3
    exact absurd ((vle_iff _ _).1 (h3 w w1 w2)) (not_le.2 w3)

theorem left_bounded_iff {i : Item} (hn : i.Normal) (hw : i.Wf) : i.min ≠ none ↔ i.BoundedBelow := by
  constructor
  · intro h
    obtain ⟨v, hv⟩ := Option.ne_none_iff_exists'.1 h
    refine ⟨v, hw.1 v hv, fun w _ h2 => ?_⟩
    rw [← cut_le_iff]
    refine le_trans ?_ ((mem_iff_cut i w).1 h2).1
    unfold Item.lo loOf
    rw [hv]
    cases i.includeMin <;> simp [cut, cutAt_le]
  · rintro ⟨v, h1, h2⟩ hm
    have hlo : i.lo = ⊥ := by unfold Item.lo loOf; rw [hm]
    obtain ⟨w, w1, w2, w3⟩ := i.exists_below hn hw (goodCut_at h1 false) (hlo ▸ bot_lt_cutAt _ _)
    exact absurd ((cut_le_iff _ _).2 (h2 w w1 w2)) (not_le.2 w3)

theorem right_bounded_iff {i : Item} (hn : i.Normal) (hw : i.Wf) : i.max ≠ none ↔ i.BoundedAbove := by
  constructor
  · intro h
    obtain ⟨v, hv⟩ := Option.ne_none_iff_exists'.1 h
    refine ⟨v, hw.2 v hv, fun w _ h2 => ?_⟩
    rw [← cut_lt_after_iff]
    refine lt_of_lt_of_le ((mem_iff_cut i w).1 h2).2 ?_
    unfold Item.hi hiOf
    rw [hv]
    cases i.includeMax <;> simp [cutAt_le]
  · rintro ⟨v, h1, h2⟩ hm
    have hhi : i.hi = ⊤ := by unfold Item.hi hiOf; rw [hm]
    obtain ⟨w, w1, w2, w3⟩ := i.exists_above hn hw (goodCut_at h1 true) (hhi ▸ cutAt_lt_top _ _)
    rw [after_le_iff, vlt_iff] at w3
    exact absurd ((vle_iff _ _).1 (h2 w w1 w2)) (not_le.2 w3)

/-- C76. A range is closed on a side iff it has a least, a greatest version; open iff it has none. -/
theorem C76_closed (i : Item) (hn : i.Normal) (hw : i.Wf) :
    (i.isLeftClosed = true ↔ ∃ v : Version, v.Wf ∧ i.Least v) ∧ (i.isRightClosed = true ↔ ∃ v : Version, v.Wf ∧ i.Greatest v) ∧
    (i.isLeftOpen = true ↔ ¬ ∃ v : Version, v.Wf ∧ i.Least v) ∧ (i.isRightOpen = true ↔ ¬ ∃ v : Version, v.Wf ∧ i.Greatest v) ∧
    (i.isClosed = true ↔ (∃ v : Version, v.Wf ∧ i.Least v) ∧ ∃ v : Version, v.Wf ∧ i.Greatest v) ∧
    (i.isOpen = true ↔ (¬ ∃ v : Version, v.Wf ∧ i.Least v) ∧ ¬ ∃ v : Version, v.Wf ∧ i.Greatest v) := by
  simp only [← left_closed_iff hn hw, ← right_closed_iff hn hw, Item.isLeftClosed, Item.isRightClosed, Item.isClosed, Item.isOpen, Item.isLeftOpen,
    Item.isRightOpen, Item.excludeMin, Item.excludeMax]
  simp

example : (exRange (some [1]) (some [2])).Normal ∧ (exRange (some [1]) (some [2])).Wf ∧ (exRange (some [1]) (some [2])).isLeftClosed = true ∧
    (exRange (some [1]) (some [2])).isRightClosed = false ∧ (exRange (some [1]) (some [2])).isClosed = false ∧
    (exRange (some [1]) (some [2])).isOpen = false ∧ (exRange (some [1]) (some [2]) false).isOpen = true := by decide +kernel

/-- C76. A range is bounded on a side iff some version is below, above all of its versions. -/
theorem C76_bounded (i : Item) (hn : i.Normal) (hw : i.Wf) :
    (i.isLeftBounded = true ↔ i.BoundedBelow) ∧ (i.isRightBounded = true ↔ i.BoundedAbove) ∧
    (i.isLeftUnbounded = true ↔ ¬ i.BoundedBelow) ∧ (i.isRightUnbounded = true ↔ ¬ i.BoundedAbove) ∧
    (i.isBounded = true ↔ i.BoundedBelow ∧ i.BoundedAbove) ∧ (i.isUnbounded = true ↔ ¬ i.BoundedBelow ∧ ¬ i.BoundedAbove) := by
  simp only [← left_bounded_iff hn hw, ← right_bounded_iff hn hw, Item.isLeftBounded, Item.isRightBounded, Item.isLeftUnbounded, Item.isRightUnbounded,
    Item.isBounded, Item.isUnbounded]
  cases i.min <;> cases i.max <;> simp

example : (exRange (some [1]) none).isLeftBounded = true ∧ (exRange (some [1]) none).isRightBounded = false ∧
    (exRange (some [1]) none).isBounded = false ∧ (exRange (some [1]) none).isUnbounded = false ∧ (exPoint [1]).isBounded = true := by decide +kernel

/-- C76. `a.is_strictly_lower(b)` iff every version of `a` comes before every version of `b`; `b.is_strictly_higher(a)` says the
same. -/
theorem C76_strictly (a b : Item) (ha : a.Normal) (hb : b.Normal) (wa : a.Wf) (wb : b.Wf) :
    (a.isStrictlyLower b = true ↔ a.AllBefore b) ∧ (b.isStrictlyHigher a = true ↔ a.AllBefore b) := by
  have key : a.hi ≤ b.lo ↔ a.AllBefore b := by
    constructor
    · intro h v w _ _ h1 h2
      rw [← cut_lt_iff]
      exact lt_of_lt_of_le ((mem_iff_cut a v).1 h1).2 (le_trans h ((mem_iff_cut b w).1 h2).1)
    · intro h
      by_contra hc
      obtain ⟨w, w1, w2, w3⟩ := b.exists_below hb wb wa.hi (not_le.1 hc)
      obtain ⟨v, v1, v2, v3⟩ := a.exists_above ha wa (goodCut_at w1 false) w3
      exact absurd ((cut_lt_iff _ _).2 (h v w v1 w1 v2 w2)) (not_lt.2 v3)
  rw [isStrictlyLower_iff ha.endsOk hb.endsOk, isStrictlyHigher_iff hb.endsOk ha.endsOk, key]
  exact ⟨Iff.rfl, Iff.rfl⟩

example : (exRange (some [1]) (some [2])).isStrictlyLower (exRange (some [2]) none) = true ∧
    (exRange (some [1]) (some [2]) true true).isStrictlyLower (exRange (some [2]) none) = false ∧
    (exRange (some [1]) (some [2]) true true).isStrictlyLower (exRange (some [2]) none false) = true := by decide +kernel

/-- C76. `a.is_lower(b)` iff some version of `a` comes before all versions of `b`, -/
theorem C76_lower (a b : Item) (ha : a.Normal) (hb : b.Normal) (wa : a.Wf) (wb : b.Wf) :
    a.isLower b = true ↔ ∃ v : Version, v.Wf ∧ a.Mem v ∧ ∀ w : Version, w.Wf → b.Mem w → v <ₚ w := by
  rw [isLower_iff ha.endsOk hb.endsOk]
  constructor
  · intro h
    obtain ⟨v, v1, v2, v3⟩ := a.exists_below ha wa wb.lo h
    refine ⟨v, v1, v2, fun w _ h2 => ?_⟩
    rw [← cut_lt_iff]
    exact lt_of_lt_of_le v3 ((mem_iff_cut b w).1 h2).1
  · rintro ⟨v, v1, v2, v3⟩
    by_contra hc
    have h1 := ((mem_iff_cut a v).1 v2).1
    have h2 : b.lo < cutAt v true := lt_of_le_of_lt (le_trans (not_lt.1 hc) h1) ((cut_lt_after_iff v v).2 ((vle_iff _ _).2 (le_refl _)))
    obtain ⟨w, w1, w2, w3⟩ := b.exists_below hb wb (goodCut_at v1 true) h2
    rw [cut_lt_after_iff, vle_iff] at w3
    exact absurd ((vlt_iff _ _).1 (v3 w w1 w2)) (not_lt.2 w3)

example : (exRange (some [1]) (some [9])).isLower (exRange (some [1]) (some [3]) false) = true ∧
    (exRange (some [1]) (some [9])).isLower (exRange (some [1]) (some [3])) = false := by decide +kernel

/-- C76. and `a.is_higher(b)` iff some version of `a` comes after all versions of `b`. -/
theorem C76_higher (a b : Item) (ha : a.Normal) (hb : b.Normal) (wa : a.Wf) (wb : b.Wf) :
    a.isHigher b = true ↔ ∃ v : Version, v.Wf ∧ a.Mem v ∧ ∀ w : Version, w.Wf → b.Mem w → w <ₚ v := by
  rw [isHigher_iff ha.endsOk hb.endsOk]
  constructor
  · intro h
    obtain ⟨v, v1, v2, v3⟩ := a.exists_above ha wa wb.hi h
    refine ⟨v, v1, v2, fun w _ h2 => ?_⟩
    rw [← cut_lt_iff]
    exact lt_of_lt_of_le ((mem_iff_cut b w).1 h2).2 v3
  · rintro ⟨v, v1, v2, v3⟩
    by_contra hc
    obtain ⟨w, w1, w2, w3⟩ := b.exists_above hb wb (goodCut_at v1 false) (lt_of_lt_of_le ((mem_iff_cut a v).1 v2).2 (not_lt.1 hc))
    exact absurd ((cut_lt_iff _ _).2 (v3 w w1 w2)) (not_lt.2 w3)

example : (exRange (some [1]) (some [3]) true true).isHigher (exRange (some [2]) (some [3])) = true ∧
    (exRange (some [1]) (some [3])).isHigher (exRange (some [2]) (some [3])) = false := by decide +kernel

/-- C76. `a.is_left_adjacent(b)`, which is `b.is_right_adjacent(a)`, iff every version of `a` comes before every version of `b`
and no version is between them. -/
theorem C76_adjacent (a b : Item) (ha : a.Normal) (hb : b.Normal) (wa : a.Wf) (wb : b.Wf) :
    (a.isLeftAdjacent b = true ↔ a.AllBefore b ∧ ¬ ∃ u : Version, u.Wf ∧ (∀ v : Version, v.Wf → a.Mem v → v <ₚ u) ∧
      ∀ w : Version, w.Wf → b.Mem w → u <ₚ w) ∧
    b.isRightAdjacent a = a.isLeftAdjacent b ∧ a.isAdjacent b = (a.isLeftAdjacent b || b.isLeftAdjacent a) := by
  refine ⟨?_, ?_, ?_⟩
  · rw [isLeftAdjacent_iff ha.endsOk hb.endsOk, ← (C76_strictly a b ha hb wa wb).1, isStrictlyLower_iff ha.endsOk hb.endsOk]
    constructor
    · intro h
      refine ⟨h.le, ?_⟩
      rintro ⟨u, u1, u2, u3⟩
      by_cases hc : cut u < a.hi
      · obtain ⟨v, v1, v2, v3⟩ := a.exists_above ha wa (goodCut_at u1 false) hc
        exact absurd ((cut_lt_iff _ _).2 (u2 v v1 v2)) (not_lt.2 v3)
      · have : b.lo < cutAt u true := lt_of_le_of_lt (h ▸ not_lt.1 hc) ((cut_lt_after_iff u u).2 ((vle_iff _ _).2 (le_refl _)))
        obtain ⟨w, w1, w2, w3⟩ := b.exists_below hb wb (goodCut_at u1 true) this
        rw [cut_lt_after_iff, vle_iff] at w3
        exact absurd ((vlt_iff _ _).1 (u3 w w1 w2)) (not_lt.2 w3)
    · rintro ⟨h1, h2⟩
      refine le_antisymm h1 (not_lt.1 fun hlt => h2 ?_)
      obtain ⟨u, u1, u2, u3⟩ := exists_between wa.hi wb.lo hlt
      refine ⟨u, u1, fun v _ hv => ?_, fun w _ hw => ?_⟩
      · rw [← cut_lt_iff]; exact lt_of_lt_of_le ((mem_iff_cut a v).1 hv).2 u2
      · rw [← cut_lt_iff]; exact lt_of_lt_of_le u3 ((mem_iff_cut b w).1 hw).1
  · rw [Bool.eq_iff_iff, isLeftAdjacent_iff ha.endsOk hb.endsOk, isRightAdjacent_iff hb.endsOk ha.endsOk]
  · rw [Bool.eq_iff_iff, Bool.or_eq_true, isAdjacent_iff ha.endsOk hb.endsOk, isLeftAdjacent_iff ha.endsOk hb.endsOk,
      isLeftAdjacent_iff hb.endsOk ha.endsOk]

/-- [1, 2) is closed and bounded on the left, open and bounded on the right; > 1 is open, and unbounded on the right. -/
example : (exRange (some [1]) (some [2])).isLeftClosed = true ∧ (exRange (some [1]) (some [2])).isRightOpen = true ∧
    (exRange (some [1]) (some [2])).isBounded = true ∧ (exRange (some [1]) none false).isOpen = true ∧
    (exRange (some [1]) none false).isRightUnbounded = true := by decide +kernel

/-- [1, 2) is strictly lower than [2, 3), adjacent to it; it is strictly lower than > 2 but not adjacent: 2 is between. -/
example : (exRange (some [1]) (some [2])).isStrictlyLower (exRange (some [2]) (some [3])) = true ∧
    (exRange (some [1]) (some [2])).isAdjacent (exRange (some [2]) (some [3])) = true ∧
    (exRange (some [1]) (some [2])).isStrictlyLower (exRange (some [2]) none false) = true ∧
    (exRange (some [1]) (some [2])).isAdjacent (exRange (some [2]) none false) = false := by decide +kernel

end Verif
