import Verif.Proofs.Merge
/-!
# Differences and intersections, on items and on sorted lists of items
-/
set_option linter.unusedSimpArgs false

namespace Verif
open scoped Verif

theorem or_none_toList {o : Option Item} : o.toList = [] ↔ o = none := by cases o <;> simp

/-- The pieces of `a` left and right of `b`. -/
structure DiffPieces (a b : Item) (l r : Option Item) : Prop where
  left_iff : l = none ↔ b.lo ≤ a.lo
  left : ∀ x, l = some x → x.Normal ∧ x.lo = a.lo ∧ x.hi = b.lo
  right_iff : r = none ↔ a.hi ≤ b.hi
  right : ∀ x, r = some x → x.Normal ∧ x.lo = b.hi ∧ x.hi = a.hi

/-- `difference` of overlapping items. -/
theorem differenceItem_overlap {a b : Item} (ha : a.Normal) (hb : b.Normal) (h1 : a.lo < b.hi) (h2 : b.lo < a.hi) :
    ∃ l r, DiffPieces a b l r ∧ ∀ lim, a.differenceItem lim b = .ok (ofItems (l.toList ++ r.toList)) := by
  have la := ha.lo_lt_hi
  have lb := hb.lo_lt_hi
  cases a with
  | point v =>
    have hc : b.contains v = true := (contains_iff v).2 ⟨(lt_after_iff _ _).1 h2, h1⟩
    have hc' := (contains_iff v).1 hc
    simp only [cut] at hc'
    refine ⟨none, none, ⟨?_, by simp, ?_, by simp⟩, ?_⟩
    · simpa using hc'.1
    · simpa using (before_lt_iff _ _).1 hc'.2
    · intro lim; simp [Item.differenceItem, hc, ofItems]
  | range r => cases b with
    | point v =>
      have hc : (Item.range r).contains v = true := (contains_iff v).2 ⟨(lt_after_iff _ _).1 h1, h2⟩
      have hc' := (contains_iff v).1 hc
      simp only [cut] at hc'
      simp only [point_lo, point_hi] at h1 h2 lb
      by_cases hmin : optEq (some v) (Item.range r).min = true
      · obtain ⟨w, hw1, hw2⟩ := optEq_iff.1 hmin
        have hlo : (Item.range r).lo = cutAt v false ∧ (Item.range r).includeMin = true := by
          have := hc'.1
          simp only [lo_eq_loOf, hw1, loOf, cutAt_le, cutAt_eq] at this ⊢
          rcases this with h | h
          · rw [hw2] at h; exact absurd h (lt_irrefl _)
          · cases hi : (Item.range r).includeMin <;> simp_all
        have hex : (Item.range r).excludeMin = false := by simp [Item.excludeMin, hlo.2]
        have hlo' : loOf (Item.range r).min false = cutAt v true := by rw [hw1]; simp [loOf, cutAt_eq, hw2]
        have hlt : loOf (Item.range r).min false < hiOf (Item.range r).max (Item.range r).includeMax := by
          rw [hlo', ← hi_eq_hiOf]
          refine lt_of_le_of_ne ((before_lt_iff _ _).1 hc'.2) ?_
          intro h
          exact (normal_wide ha) v ⟨hlo.1, h.symm⟩
        refine ⟨none, some (.range ⟨(Item.range r).min, (Item.range r).max, false, (Item.range r).includeMax⟩),
          ⟨?_, by simp, ?_, ?_⟩, ?_⟩
        · simp [hlo.1]
        · simp only [reduceCtorEq, false_iff, not_le, point_hi]
          rw [hlo', ← hi_eq_hiOf] at hlt; exact hlt
        · rintro x ⟨rfl⟩
          exact ⟨⟨fun _ => rfl, ha.2.1, ha.2.2⟩, hlo', rfl⟩
        · intro lim
          simp only [Item.differenceItem, hc, hmin, hex, Bool.not_true, Bool.false_eq_true, if_false, if_true,
            mkRange_ok (fun _ => rfl) ha.endsOk.2 hlt]
          rfl
      · have hminf : optEq (some v) (Item.range r).min = false := by simpa using hmin
        have hlo : (Item.range r).lo < cutAt v false := by
          refine lt_of_le_of_ne hc'.1 ?_
          intro h
          obtain ⟨w, hw1, hw2, -⟩ := lo_range_eq_cut ha h
          exact hmin (optEq_iff.2 ⟨w, hw1, hw2.symm⟩)
        have hlow : ∀ x, r.min = some x → x.key < v.key := by
          intro x hx
          simp only [lo_eq_loOf, Item.min, Item.fields, hx, loOf, cutAt_lt] at hlo
          rcases hlo with h | h
          · exact h
          · simp at h
        by_cases hmax : optEq (some v) (Item.range r).max = true
        · obtain ⟨w, hw1, hw2⟩ := optEq_iff.1 hmax
          have hhi : (Item.range r).hi = cutAt v true ∧ (Item.range r).includeMax = true := by
            have := hc'.2
            simp only [hi_eq_hiOf, hw1, hiOf, cutAt_lt, cutAt_eq] at this ⊢
            rcases this with h | h
            · rw [hw2] at h; exact absurd h (lt_irrefl _)
            · exact ⟨⟨h.1.symm, h.2.2⟩, h.2.2⟩
          have hex : (Item.range r).excludeMax = false := by simp [Item.excludeMax, hhi.2]
          have hhi' : hiOf (Item.range r).max false = cutAt v false := by rw [hw1]; simp [hiOf, cutAt_eq, hw2]
          have hlt : loOf (Item.range r).min (Item.range r).includeMin < hiOf (Item.range r).max false := by
            rw [hhi', ← lo_eq_loOf]; exact hlo
          refine ⟨some (.range ⟨(Item.range r).min, (Item.range r).max, (Item.range r).includeMin, false⟩), none,
            ⟨?_, ?_, ?_, by simp⟩, ?_⟩
          · simp only [reduceCtorEq, false_iff, not_le, point_lo]; exact hlo
          · rintro x ⟨rfl⟩
            exact ⟨⟨ha.1, fun _ => rfl, ha.2.2⟩, rfl, hhi'⟩
          · simp [hhi.1]
          · intro lim
            simp only [Item.differenceItem, hc, hminf, hmax, hex, Bool.not_true, Bool.false_eq_true, if_false, if_true,
              mkRange_ok ha.endsOk.1 (fun _ => rfl) hlt]
            rfl
        · have hmaxf : optEq (some v) (Item.range r).max = false := by simpa using hmax
          have hhi : cutAt v true < (Item.range r).hi := by
            refine lt_of_le_of_ne ((before_lt_iff _ _).1 hc'.2) ?_
            intro h
            obtain ⟨w, hw1, hw2, -⟩ := hi_range_eq_cut ha h.symm
            exact hmax (optEq_iff.2 ⟨w, hw1, hw2.symm⟩)
          have hhiw : ∀ x, r.max = some x → v.key < x.key := by
            intro x hx
            simp only [hi_eq_hiOf, Item.max, Item.fields, hx, hiOf, cutAt_lt] at hhi
            rcases hhi with h | h
            · exact h
            · simp at h
          have hl1 : loOf (Item.range r).min (Item.range r).includeMin < hiOf (some v) false := hlo
          have hl2 : loOf (some v) false < hiOf (Item.range r).max (Item.range r).includeMax := hhi
          have nl : (Item.range ⟨(Item.range r).min, some v, (Item.range r).includeMin, false⟩).Normal := by
            refine ⟨ha.1, fun h => (Option.some_ne_none _ h).elim, ?_⟩
            rintro a b h1 ⟨rfl⟩
            exact (vlt_iff _ _).2 (hlow a h1)
          have nr : (Item.range ⟨some v, (Item.range r).max, false, (Item.range r).includeMax⟩).Normal := by
            refine ⟨fun h => (Option.some_ne_none _ h).elim, ha.2.1, ?_⟩
            rintro a b ⟨rfl⟩ h1
            exact (vlt_iff _ _).2 (hhiw b h1)
          refine ⟨some (.range ⟨(Item.range r).min, some v, (Item.range r).includeMin, false⟩),
            some (.range ⟨some v, (Item.range r).max, false, (Item.range r).includeMax⟩), ⟨?_, ?_, ?_, ?_⟩, ?_⟩
          · simp only [reduceCtorEq, false_iff, not_le, point_lo]; exact hlo
          · rintro x ⟨rfl⟩; exact ⟨nl, rfl, rfl⟩
          · simp only [reduceCtorEq, false_iff, not_le, point_hi]; exact hhi
          · rintro x ⟨rfl⟩; exact ⟨nr, rfl, rfl⟩
          · intro lim
            have hg := mergeItems_gaps (l := [.range ⟨(Item.range r).min, some v, (Item.range r).includeMin, false⟩,
              .range ⟨some v, (Item.range r).max, false, (Item.range r).includeMax⟩]) (by
                intro i hi
                simp only [List.mem_cons, List.not_mem_nil, or_false] at hi
                rcases hi with rfl | rfl
                · exact nl
                · exact nr) (by
                unfold Gaps; rw [List.pairwise_pair]; exact lb) (Item.unionItem lim)
            simp only [Item.differenceItem, hc, hminf, hmaxf, Bool.not_true, Bool.false_eq_true, if_false,
              mkRange_ok ha.endsOk.1 (fun h => (Option.some_ne_none _ h).elim) hl1, mkRange_ok (fun h => (Option.some_ne_none _ h).elim) ha.endsOk.2 hl2]
            exact hg
    | range s =>
      have hint : (Item.range r).intersectsItem (.range s) = true := (intersectsItem_iff ha hb).2 ⟨h1, h2⟩
      have e1 := isLower_iff ha.endsOk hb.endsOk
      have e2 := isHigher_iff ha.endsOk hb.endsOk
      have hleft : ∃ l : Option Item, (l = none ↔ (Item.range s).lo ≤ (Item.range r).lo) ∧
          (∀ x, l = some x → x.Normal ∧ x.lo = (Item.range r).lo ∧ x.hi = (Item.range s).lo) ∧
          (Item.range r).differenceBefore (.range s) = .ok l := by
        unfold Item.differenceBefore
        by_cases h : (Item.range r).lo < (Item.range s).lo
        · have h' : (!(Item.range r).isLower (.range s)) = false := by simp [e1.2 h]
          rw [h']
          have hsm : ∃ m, (Item.range s).min = some m := by
            cases hm : (Item.range s).min with
            | none =>
              rw [lo_eq_loOf (Item.range s), hm] at h
              exact absurd h not_lt_bot
            | some m => exact ⟨m, rfl⟩
          obtain ⟨m, hm⟩ := hsm
          have hslo : (Item.range s).lo = cutAt m (!(Item.range s).includeMin) := by rw [lo_eq_loOf, hm]; rfl
          by_cases heq : optEq (Item.range r).min (Item.range s).min = true
          · have hrm : ∃ w, (Item.range r).min = some w ∧ w.key = m.key := by
              cases hw : (Item.range r).min with
              | none => rw [hw, hm] at heq; simp [optEq] at heq
              | some w => rw [hw, hm, optEq_some] at heq; exact ⟨w, rfl, heq⟩
            obtain ⟨w, hw, hk⟩ := hrm
            have hrlo : (Item.range r).lo = cutAt w (!(Item.range r).includeMin) := by rw [lo_eq_loOf, hw]; rfl
            rw [hrlo, hslo, cutAt_lt] at h
            have hinc := (h.resolve_left (by rw [hk]; exact lt_irrefl _)).2
            refine ⟨some (.point w), ?_, ?_, ?_⟩
            · simp only [reduceCtorEq, false_iff, not_le]
              rw [hrlo, hslo, cutAt_lt]; exact h
            · rintro x ⟨rfl⟩
              refine ⟨trivial, ?_, ?_⟩
              · rw [hrlo, hinc.1]; rfl
              · rw [hslo, hinc.2, point_hi, cutAt_eq]; exact ⟨hk, rfl⟩
            · rw [if_neg (by simp), if_pos heq, hw]
              rfl
          · have hhi : hiOf (Item.range s).min (Item.range s).excludeMin = (Item.range s).lo := by
              rw [hslo, hm]; rfl
            have hlt : loOf (Item.range r).min (Item.range r).includeMin < hiOf (Item.range s).min (Item.range s).excludeMin := by
              rw [hhi]; exact h
            have hno : (Item.range s).min = none → (Item.range s).excludeMin = false := by rw [hm]; intro h; cases h
            refine ⟨some (.range ⟨(Item.range r).min, (Item.range s).min, (Item.range r).includeMin, (Item.range s).excludeMin⟩), ?_, ?_, ?_⟩
            · simp only [reduceCtorEq, false_iff, not_le]; exact h
            · rintro x ⟨rfl⟩
              refine ⟨⟨ha.1, hno, ?_⟩, rfl, hhi⟩
              intro a b ha' hb'
              have ha' : (Item.range r).min = some a := ha'
              have hb' : (Item.range s).min = some b := hb'
              rw [vlt_iff]
              have hrlo : (Item.range r).lo = cutAt a (!(Item.range r).includeMin) := by rw [lo_eq_loOf, ha']; rfl
              have hbm : b = m := by rw [hm] at hb'; exact (Option.some.inj hb').symm
              rw [hrlo, hslo, cutAt_lt] at h
              rcases h with h | h
              · rw [hbm]; exact h
              · rw [ha', hm, optEq_some] at heq; exact absurd h.1 heq
            · rw [if_neg (by simp), if_neg heq, mkRange_ok ha.endsOk.1 hno hlt]
              rfl
        · have h' : (!(Item.range r).isLower (.range s)) = true := by
            rw [Bool.not_eq_true', Bool.eq_false_iff, ne_eq, e1]; exact h
          rw [h']
          exact ⟨none, by simpa using h, by simp, by simp⟩
      have hright : ∃ l : Option Item, (l = none ↔ (Item.range r).hi ≤ (Item.range s).hi) ∧
          (∀ x, l = some x → x.Normal ∧ x.lo = (Item.range s).hi ∧ x.hi = (Item.range r).hi) ∧
          (Item.range r).differenceAfter (.range s) = .ok l := by
        unfold Item.differenceAfter
        by_cases h : (Item.range s).hi < (Item.range r).hi
        · have h' : (!(Item.range r).isHigher (.range s)) = false := by simp [e2.2 h]
          rw [h']
          have hsm : ∃ m, (Item.range s).max = some m := by
            cases hm : (Item.range s).max with
            | none =>
              rw [hi_eq_hiOf (Item.range s), hm] at h
              exact absurd h not_top_lt
            | some m => exact ⟨m, rfl⟩
          obtain ⟨m, hm⟩ := hsm
          have hshi : (Item.range s).hi = cutAt m (Item.range s).includeMax := by rw [hi_eq_hiOf, hm]; rfl
          by_cases heq : optEq (Item.range r).max (Item.range s).max = true
          · have hrm : ∃ w, (Item.range r).max = some w ∧ w.key = m.key := by
              cases hw : (Item.range r).max with
              | none => rw [hw, hm] at heq; simp [optEq] at heq
              | some w => rw [hw, hm, optEq_some] at heq; exact ⟨w, rfl, heq⟩
            obtain ⟨w, hw, hk⟩ := hrm
            have hrhi : (Item.range r).hi = cutAt w (Item.range r).includeMax := by rw [hi_eq_hiOf, hw]; rfl
            rw [hrhi, hshi, cutAt_lt] at h
            have hinc := (h.resolve_left (by rw [hk]; exact lt_irrefl _)).2
            refine ⟨some (.point w), ?_, ?_, ?_⟩
            · simp only [reduceCtorEq, false_iff, not_le]
              rw [hrhi, hshi, cutAt_lt]; exact h
            · rintro x ⟨rfl⟩
              refine ⟨trivial, ?_, ?_⟩
              · rw [hshi, hinc.1, point_lo, cutAt_eq]; exact ⟨hk, rfl⟩
              · rw [hrhi, hinc.2]; rfl
            · rw [if_neg (by simp), if_pos heq, hw]
              rfl
          · have hlo : loOf (Item.range s).max (Item.range s).excludeMax = (Item.range s).hi := by
              rw [hshi, hm]; simp [loOf, Item.excludeMax]
            have hlt : loOf (Item.range s).max (Item.range s).excludeMax < hiOf (Item.range r).max (Item.range r).includeMax := by
              rw [hlo]; exact h
            have hno : (Item.range s).max = none → (Item.range s).excludeMax = false := by rw [hm]; intro h; cases h
            refine ⟨some (.range ⟨(Item.range s).max, (Item.range r).max, (Item.range s).excludeMax, (Item.range r).includeMax⟩), ?_, ?_, ?_⟩
            · simp only [reduceCtorEq, false_iff, not_le]; exact h
            · rintro x ⟨rfl⟩
              refine ⟨⟨hno, ha.2.1, ?_⟩, hlo, rfl⟩
              intro a b ha' hb'
              have ha' : (Item.range s).max = some a := ha'
              have hb' : (Item.range r).max = some b := hb'
              rw [vlt_iff]
              have hrhi : (Item.range r).hi = cutAt b (Item.range r).includeMax := by rw [hi_eq_hiOf, hb']; rfl
              have ham : a = m := by rw [hm] at ha'; exact (Option.some.inj ha').symm
              rw [hrhi, hshi, cutAt_lt] at h
              rcases h with h | h
              · rw [ham]; exact h
              · rw [hb', hm, optEq_some] at heq; exact absurd h.1.symm heq
            · rw [if_neg (by simp), if_neg heq, mkRange_ok hno ha.endsOk.2 hlt]
              rfl
        · have h' : (!(Item.range r).isHigher (.range s)) = true := by
            rw [Bool.not_eq_true', Bool.eq_false_iff, ne_eq, e2]; exact h
          rw [h']
          exact ⟨none, by simpa using h, by simp, by simp⟩
      obtain ⟨l, l1, l2, l3⟩ := hleft
      obtain ⟨r', r1, r2, r3⟩ := hright
      refine ⟨l, r', ⟨l1, l2, r1, r2⟩, ?_⟩
      intro lim
      simp only [Item.differenceItem, hint, Bool.not_true, Bool.false_eq_true, if_false]
      rw [l3, r3]
      cases l with
      | none => cases r' <;> rfl
      | some x => cases r' with
        | none => rfl
        | some y =>
          have hx := l2 x rfl
          have hy := r2 y rfl
          exact mergeItems_gaps (l := [x, y]) (by
            intro i hi
            simp only [List.mem_cons, List.not_mem_nil, or_false] at hi
            rcases hi with rfl | rfl
            · exact hx.1
            · exact hy.1) (by
            unfold Gaps; rw [List.pairwise_pair, hx.2.2, hy.2.1]; exact lb) (Item.unionItem lim)

/-- `difference` of disjoint items. -/
theorem differenceItem_disjoint {a b : Item} (ha : a.Normal) (hb : b.Normal) (h : ¬ (a.lo < b.hi ∧ b.lo < a.hi)) (lim : Nat) :
    a.differenceItem lim b = .ok (.item a) := by
  cases a with
  | point v =>
    have hc : b.contains v = false := by
      rw [Bool.eq_false_iff, ne_eq, contains_iff]
      rintro ⟨h1, h2⟩
      exact h ⟨h2, (lt_after_iff _ _).2 h1⟩
    simp [Item.differenceItem, hc]
  | range r => cases b with
    | point v =>
      have hc : (Item.range r).contains v = false := by
        rw [Bool.eq_false_iff, ne_eq, contains_iff]
        rintro ⟨h1, h2⟩
        exact h ⟨(lt_after_iff _ _).2 h1, h2⟩
      simp [Item.differenceItem, hc]
    | range s =>
      have hc : (Item.range r).intersectsItem (.range s) = false := by
        rw [Bool.eq_false_iff, ne_eq, intersectsItem_iff ha hb]; exact h
      simp [Item.differenceItem, hc]

end Verif
