import Verif.Proofs.Density
/-!
# Operations on whole sets
-/
set_option linter.unusedSimpArgs false

namespace Verif
open scoped Verif

/-- The cuts inside a set. -/
def VSet.Cov (s : VSet) (c : Cut) : Prop := Verif.Cov s.extract c

theorem flatMap_extract_map (l : List Item) : (l.map VSet.item).flatMap VSet.extract = l := by
  induction l with
  | nil => rfl
  | cons a l ih =>
    rw [List.map_cons, List.flatMap_cons, ih]; rfl

theorem unionOf_gaps {l : List Item} (hn : AllNormal l) (hg : Gaps l) (lim : Nat) :
    VSet.unionOf lim (l.map .item) = .ok (ofItems l) := by
  rw [VSet.unionOf, flatMap_extract_map]
  exact mergeItems_gaps hn hg _

theorem VSet.Normal.allNormal {s : VSet} (h : s.Normal) : AllNormal s.extract := h.extract.1
theorem VSet.Normal.gaps {s : VSet} (h : s.Normal) : Gaps s.extract := h.extract.2.1

theorem ofItems_cov (l : List Item) (c : Cut) : (ofItems l).Cov c ↔ Cov l c := by
  rw [VSet.Cov, extract_ofItems]

theorem Item.Normal.cov_self {i : Item} (h : i.Normal) : ∃ c, i.lo ≤ c ∧ c < i.hi := ⟨i.lo, le_rfl, h.lo_lt_hi⟩

theorem VSet.Normal.eq_empty_iff {s : VSet} (h : s.Normal) : s = .empty ↔ ∀ c, ¬ s.Cov c := by
  constructor
  · rintro rfl c hc; exact (cov_nil c).1 hc
  · intro hno
    obtain ⟨hn, hg, he⟩ := h.extract
    cases hl : s.extract with
    | nil => rw [he, hl]; rfl
    | cons i l =>
      rw [hl] at hn
      have := hn.head.lo_lt_hi
      exact absurd ⟨i, by rw [hl]; simp, le_rfl, this⟩ (hno i.lo)

theorem point_cov (v : Version) (c : Cut) : (VSet.item (.point v)).Cov c ↔ c = cut v := by
  rw [VSet.Cov, VSet.extract, cov_cons, cov_nil, or_false, point_lo, point_hi, lt_after_iff]
  unfold cut
  constructor
  · rintro ⟨h1, h2⟩; order
  · rintro rfl; exact ⟨le_rfl, le_rfl⟩

theorem contains_cov (s : VSet) (v : Version) : s.contains v = true ↔ s.Cov (cut v) := by
  rw [vset_contains_iff_mem, mem_iff_cov]; rfl

/-! ### intersection -/

theorem intersection_spec {a b : VSet} (ha : a.Normal) (hb : b.Normal) :
    ∃ s, (∀ lim, a.intersection lim b = .ok s) ∧ s.Normal ∧ ∀ c, s.Cov c ↔ a.Cov c ∧ b.Cov c := by
  have hloop : ∀ a b : VSet, a.Normal → b.Normal → ∃ s, (∀ lim, (do
        VSet.unionOf lim ((← VSet.intersectionLoop a.extract b.extract).map .item)) = .ok s) ∧ s.Normal ∧
      ∀ c, s.Cov c ↔ a.Cov c ∧ b.Cov c := by
    intro a b ha hb
    obtain ⟨out, o1, o2, o3, -, -, o6⟩ := intersectionLoop_spec _ a.extract b.extract le_rfl ha.allNormal ha.gaps
      hb.allNormal hb.gaps
    refine ⟨ofItems out, ?_, normal_ofItems o2 o3, ?_⟩
    · intro lim
      rw [o1]
      exact unionOf_gaps o2 o3 lim
    · intro c; rw [ofItems_cov]; exact o6 c
  cases a with
  | empty => exact ⟨.empty, fun lim => by simp [VSet.intersection], trivial, fun c => by simp [VSet.Cov, VSet.extract]⟩
  | item i => cases i with
    | point v =>
      by_cases h : b.contains v = true
      · refine ⟨.item (.point v), fun lim => by simp [VSet.intersection, h], trivial, ?_⟩
        intro c
        rw [point_cov]
        constructor
        · rintro rfl; exact ⟨rfl, (contains_cov b v).1 h⟩
        · exact fun h => h.1
      · refine ⟨.empty, fun lim => by simp [VSet.intersection, h], trivial, ?_⟩
        intro c
        rw [point_cov]
        constructor
        · intro h; exact absurd h (by simp [VSet.Cov, VSet.extract])
        · rintro ⟨rfl, h2⟩; exact absurd ((contains_cov b v).2 h2) h
    | range r => cases b with
      | empty => exact ⟨.empty, fun lim => by simp [VSet.intersection], trivial, fun c => by simp [VSet.Cov, VSet.extract]⟩
      | item j =>
        rcases intersectionItem_spec (a := .range r) (b := j) ha hb with ⟨h1, h2, i, i1, i2, i3, i4⟩ | ⟨h1, h2⟩
        · refine ⟨.item i, fun lim => i1, i2, ?_⟩
          intro c
          simp only [VSet.Cov, VSet.extract, cov_cons, cov_nil, or_false, i3, i4, sup_le_iff, lt_inf_iff]
          tauto
        · refine ⟨.empty, fun lim => h2, trivial, ?_⟩
          intro c
          simp only [VSet.Cov, VSet.extract, cov_cons, cov_nil, or_false, false_iff]
          rintro ⟨⟨h3, h4⟩, h5, h6⟩
          exact h1 ⟨lt_of_le_of_lt h3 h6, lt_of_le_of_lt h5 h4⟩
      | union items =>
        obtain ⟨s, h1, h2, h3⟩ := hloop (.union items) (.item (.range r)) hb ha
        refine ⟨s, fun lim => h1 lim, h2, ?_⟩
        intro c; rw [h3 c, and_comm]
  | union items =>
    exact hloop (.union items) b ha hb

/-! ### union -/

/-- The operands on which `union` recurses without end. -/
def UnionBad (a b : VSet) : Prop :=
  Bad (a.extract ++ b.extract) ∧ ¬ ((∃ r, a = .item (.range r)) ∧ ∃ v, b = .item (.point v))

theorem mergeSets_spec {l m : List Item} (hn : AllNormal (l ++ m)) :
    (¬ Bad (l ++ m) → ∃ s, (∀ lim, VSet.mergeItems (Item.unionItem (lim + 1)) (l ++ m) = .ok s) ∧ s.Normal ∧
      ∀ c, s.Cov c ↔ Cov l c ∨ Cov m c) ∧
    (Bad (l ++ m) → ∀ lim, VSet.mergeItems (Item.unionItem lim) (l ++ m) = .error .recursionError) := by
  obtain ⟨h1, h2⟩ := mergeItems_spec hn
  refine ⟨fun h => ?_, h2⟩
  obtain ⟨s, s1, s2, s3⟩ := h1 h
  exact ⟨s, s1, s2, fun c => by rw [← cov_append]; exact s3 c⟩

theorem AllNormal.append {l m : List Item} (hl : AllNormal l) (hm : AllNormal m) : AllNormal (l ++ m) := by
  intro i hi
  rcases List.mem_append.1 hi with hi | hi
  · exact hl i hi
  · exact hm i hi

theorem Bad.comm {l m : List Item} : Bad (l ++ m) ↔ Bad (m ++ l) := Bad.perm List.perm_append_comm

theorem no_bad_of_pts {l : List Item} (h : ∀ i ∈ l, i.IsPt) : ¬ Bad l := by
  rintro ⟨p, hp, hpp, ⟨r, hr, hrr, -⟩, -⟩
  exact hrr (h r hr)

theorem no_bad_of_ranges {l : List Item} (h : ∀ i ∈ l, ¬ i.IsPt) : ¬ Bad l := by
  rintro ⟨p, hp, hpp, -⟩
  exact h p hp hpp

theorem union_item_spec {i j : Item} (hi : i.Normal) (hj : j.Normal) :
    (¬ UnionBad (.item i) (.item j) → ∃ s, (∀ lim, i.unionItem (lim + 2) j = .ok s) ∧ s.Normal ∧
      ∀ c, s.Cov c ↔ (VSet.item i).Cov c ∨ (VSet.item j).Cov c) ∧
    (UnionBad (.item i) (.item j) → ∀ lim, i.unionItem lim j = .error .recursionError) := by
  have li := hi.lo_lt_hi
  have lj := hj.lo_lt_hi
  have hn : AllNormal [i, j] := (allNormal_single hj).cons hi
  have hcov : ∀ k : Item, k.lo = min i.lo j.lo → k.hi = max i.hi j.hi → i.lo ≤ j.hi → j.lo ≤ i.hi →
      ∀ c, (VSet.item k).Cov c ↔ (VSet.item i).Cov c ∨ (VSet.item j).Cov c := by
    intro k k1 k2 h1 h2 c
    simp only [VSet.Cov, VSet.extract, cov_cons, cov_nil, or_false]
    rw [k1, k2, inf_le_iff, lt_sup_iff]
    constructor
    · rintro ⟨h3, h4⟩
      by_cases h5 : i.lo ≤ c
      · by_cases h6 : c < i.hi
        · exact .inl ⟨h5, h6⟩
        · exact .inr ⟨by order, h4.resolve_left h6⟩
      · right
        refine ⟨h3.resolve_left h5, ?_⟩
        order
    · rintro (⟨h3, h4⟩ | ⟨h3, h4⟩)
      · exact ⟨.inl h3, .inl h4⟩
      · exact ⟨.inr h3, .inr h4⟩
  by_cases hcon : i.lo ≤ j.hi ∧ j.lo ≤ i.hi
  · by_cases hp : i.IsPt ∧ ¬ j.IsPt ∧ (j.lo = i.hi ∨ j.hi = i.lo)
    · -- a version next to a range
      obtain ⟨hip, hjr, had⟩ := hp
      rcases had with had | had
      · have hb : Bad ([i] ++ [j]) := by
          refine ⟨i, by simp, hip, ⟨j, by simp, hjr, had⟩, ?_⟩
          intro s hs hsr
          simp only [List.cons_append, List.nil_append, List.mem_cons, List.not_mem_nil, or_false] at hs
          rcases hs with rfl | rfl
          · exact absurd hip hsr
          · rintro ⟨h1, h2⟩; order
        have hub : UnionBad (.item i) (.item j) := by
          refine ⟨hb, ?_⟩
          rintro ⟨⟨r, hr⟩, -⟩
          cases hr; exact hip
        exact ⟨fun h => absurd hub h, fun _ lim => unionItem_bad hj ⟨hip, hjr, had⟩ lim⟩
      · -- the range ends right before the version
        have hnb : ¬ Bad ([j] ++ [i]) := by
          rintro ⟨p, hp, hpp, -, hno⟩
          have hpi : p = i := by
            simp only [List.cons_append, List.nil_append, List.mem_cons, List.not_mem_nil, or_false] at hp
            rcases hp with rfl | rfl
            · exact absurd hpp hjr
            · rfl
          subst hpi
          exact hno j (by simp) hjr ⟨by order, by order⟩
        have hnu : ¬ UnionBad (.item i) (.item j) := fun h => hnb (Bad.comm.1 h.1)
        refine ⟨fun _ => ?_, fun h => absurd h hnu⟩
        obtain ⟨h1, -⟩ := mergeSets_spec (l := [i]) (m := [j]) hn
        obtain ⟨s, s1, s2, s3⟩ := h1 (fun h => hnb (Bad.comm.1 h))
        refine ⟨s, ?_, s2, s3⟩
        intro lim
        cases i with
        | range r => exact hip.elim
        | point v => cases j with
          | point w => exact absurd trivial hjr
          | range t =>
            have hc : (Item.range t).contains v = false := by
              rw [Bool.eq_false_iff, ne_eq, contains_iff, had]
              intro h; exact absurd h.2 (lt_irrefl _)
            simp only [Item.unionItem, hc, Bool.false_eq_true, if_false]
            exact s1 lim
    · obtain ⟨k, k1, k2, k3, k4, -⟩ := unionItem_connected hi hj hcon.1 hcon.2 hp
      have hnu : ¬ UnionBad (.item i) (.item j) := by
        rintro ⟨⟨p, hp1, hpp, ⟨r, hr, hrr, hrlo⟩, hno⟩, hx⟩
        simp only [VSet.extract, List.cons_append, List.nil_append, List.mem_cons, List.not_mem_nil, or_false] at hp1 hr
        rcases hp1 with rfl | rfl
        · rcases hr with rfl | rfl
          · exact hrr hpp
          · exact hp ⟨hpp, hrr, .inl hrlo⟩
        · rcases hr with rfl | rfl
          · apply hx
            cases r with
            | point _ => exact absurd trivial hrr
            | range r => cases p with
              | point v => exact ⟨⟨r, rfl⟩, v, rfl⟩
              | range _ => exact hpp.elim
          · exact hrr hpp
      exact ⟨fun _ => ⟨.item k, fun lim => k1 _, k2, hcov k k3 k4 hcon.1 hcon.2⟩, fun h => absurd h hnu⟩
  · -- not connected: kept side by side
    have hnb : ¬ Bad ([i] ++ [j]) := by
      rintro ⟨p, hp1, hpp, ⟨r, hr, hrr, hrlo⟩, -⟩
      simp only [List.cons_append, List.nil_append, List.mem_cons, List.not_mem_nil, or_false] at hp1 hr
      apply hcon
      rcases hp1 with rfl | rfl <;> rcases hr with rfl | rfl
      · exact absurd hpp hrr
      · constructor <;> order
      · constructor <;> order
      · exact absurd hpp hrr
    have hnu : ¬ UnionBad (.item i) (.item j) := fun h => hnb h.1
    refine ⟨fun _ => ?_, fun h => absurd h hnu⟩
    obtain ⟨h1, -⟩ := mergeSets_spec (l := [i]) (m := [j]) hn
    obtain ⟨s, s1, s2, s3⟩ := h1 hnb
    refine ⟨s, ?_, s2, s3⟩
    intro lim
    have hcf : (i.intersectsItem j || i.isAdjacent j) = false := by
      rw [Bool.eq_false_iff, ne_eq, connected_iff hi hj]; exact hcon
    rw [Bool.or_eq_false_iff] at hcf
    cases i with
    | range r => cases j with
      | range t =>
        simp only [Item.unionItem, hcf.1, hcf.2, Bool.not_false, Bool.and_self, if_true]
        exact s1 lim
      | point v =>
        have hc : (Item.range r).contains v = false := hcf.1
        have hmin : optEq (some v) (Item.range r).min = false := by
          rw [Bool.eq_false_iff, ne_eq, optEq_iff]
          rintro ⟨w, hw1, hw2⟩
          apply hcon
          have : (Item.range r).lo = cutAt v (!(Item.range r).includeMin) := by
            rw [lo_eq_loOf, hw1, loOf, cutAt_eq]; exact ⟨hw2.symm, rfl⟩
          rw [point_hi, point_lo, this] 
          rw [this] at li
          constructor
          · rw [cutAt_le]; right; exact ⟨rfl, fun _ => rfl⟩
          · refine le_trans ?_ li.le
            rw [cutAt_le]; right; exact ⟨rfl, by simp⟩
        have hmax : optEq (some v) (Item.range r).max = false := by
          rw [Bool.eq_false_iff, ne_eq, optEq_iff]
          rintro ⟨w, hw1, hw2⟩
          apply hcon
          have : (Item.range r).hi = cutAt v (Item.range r).includeMax := by
            rw [hi_eq_hiOf, hw1, hiOf, cutAt_eq]; exact ⟨hw2.symm, rfl⟩
          rw [point_hi, point_lo, this]
          rw [this] at li
          constructor
          · refine li.le.trans ?_
            rw [cutAt_le]; right; exact ⟨rfl, fun _ => rfl⟩
          · rw [cutAt_le]; right; exact ⟨rfl, by simp⟩
        simp only [Item.unionItem, hc, hmin, hmax, Bool.false_eq_true, if_false]
        exact s1 lim
    | point v => cases j with
      | range t =>
        have hc : (Item.range t).contains v = false := hcf.1
        simp only [Item.unionItem, hc, Bool.false_eq_true, if_false]
        exact s1 lim
      | point w =>
        have hc : (Item.point v).contains w = false := by
          have : (Item.point w).contains v = false := hcf.1
          rw [Bool.eq_false_iff, ne_eq] at this ⊢
          simp only [Item.contains, veq_iff] at this ⊢
          exact fun h => this h.symm
        simp only [Item.unionItem, hc, Bool.false_eq_true, if_false]
        exact s1 lim

/-- `union`: exact, normal, and it fails only by recursing without end. -/
theorem unionWith_spec {a b : VSet} (ha : a.Normal) (hb : b.Normal) :
    (¬ UnionBad a b → ∃ s, (∀ lim, a.unionWith (lim + 2) b = .ok s) ∧ s.Normal ∧ ∀ c, s.Cov c ↔ a.Cov c ∨ b.Cov c) ∧
    (UnionBad a b → ∀ lim, a.unionWith lim b = .error .recursionError) := by
  have hab := ha.allNormal.append hb.allNormal
  have hself : ∀ s : VSet, s.Normal → ¬ Bad s.extract := fun s hs => gaps_not_bad hs.allNormal hs.gaps
  cases a with
  | empty =>
    refine ⟨fun _ => ⟨b, fun lim => by simp [VSet.unionWith], hb, fun c => by simp [VSet.Cov, VSet.extract]⟩, ?_⟩
    rintro ⟨h, -⟩; exact absurd h (hself b hb)
  | item i => cases b with
    | empty =>
      refine ⟨fun _ => ⟨.item i, fun lim => by simp [VSet.unionWith], ha, fun c => by simp [VSet.Cov, VSet.extract]⟩, ?_⟩
      rintro ⟨h, -⟩
      exact absurd h (by simpa [VSet.extract] using hself (.item i) ha)
    | item j =>
      obtain ⟨h1, h2⟩ := union_item_spec (i := i) (j := j) ha hb
      exact ⟨fun h => h1 h, fun h lim => h2 h lim⟩
    | union items => cases i with
      | range r =>
        obtain ⟨h1, h2⟩ := mergeSets_spec (l := items) (m := [.range r]) (hb.allNormal.append ha.allNormal)
        constructor
        · intro hnb
          obtain ⟨s, s1, s2, s3⟩ := h1 (fun h => hnb ⟨Bad.comm.1 h, by rintro ⟨-, v, hv⟩; cases hv⟩)
          refine ⟨s, fun lim => ?_, s2, fun c => by rw [s3 c, or_comm]; rfl⟩
          simp only [VSet.unionWith, VSet.unionOf, List.flatMap_cons, List.flatMap_nil, VSet.extract, List.append_nil]
          exact s1 _
        · intro hbad lim
          simp only [VSet.unionWith, VSet.unionOf, List.flatMap_cons, List.flatMap_nil, VSet.extract, List.append_nil]
          exact h2 (Bad.comm.1 hbad.1) lim
      | point v =>
        obtain ⟨h1, h2⟩ := mergeSets_spec (l := [.point v]) (m := items) hab
        by_cases hc : (VSet.union items).contains v = true
        · refine ⟨fun _ => ⟨.union items, fun lim => by simp [VSet.unionWith, hc], hb, ?_⟩, ?_⟩
          · intro c
            rw [point_cov]
            constructor
            · exact .inr
            · rintro (rfl | h)
              · exact (contains_cov _ _).1 hc
              · exact h
          · rintro ⟨⟨p, hp, hpp, ⟨r, hr, hrr, hrlo⟩, hno⟩, -⟩
            exfalso
            obtain ⟨x, hx, x1, x2⟩ := (contains_cov _ _).1 hc
            have hx : x ∈ items := hx
            simp only [VSet.extract, List.cons_append, List.nil_append, List.mem_cons] at hp hr hno
            have hr' : r ∈ items := by
              rcases hr with rfl | hr
              · exact absurd trivial hrr
              · exact hr
            have hg := List.pairwise_iff_getElem.1 hb.gaps
            have key : ∀ q ∈ items, q.IsPt → r.lo ≠ q.hi := by
              intro q hq hqp heq
              have lr := (hb.allNormal r hr').lo_lt_hi
              have lq := (hb.allNormal q hq).lo_lt_hi
              obtain ⟨m, hm, rfl⟩ := List.mem_iff_getElem.1 hr'
              obtain ⟨n, hn', rfl⟩ := List.mem_iff_getElem.1 hq
              rcases Nat.lt_trichotomy m n with h | h | h
              · have := hg m n hm hn' h
                simp only [VSet.extract] at this
                order
              · subst h; exact hrr hqp
              · have := hg n m hn' hm h
                simp only [VSet.extract] at this
                order
            rcases hp with rfl | hp
            · by_cases hxp : x.IsPt
              · refine key x hx hxp ?_
                rw [hrlo]
                have hxlo : x.lo = cut v := by
                  obtain ⟨w, w1, w2⟩ := hxp.hi_lo
                  rw [w2] at x2
                  rw [w1] at x1 ⊢
                  rw [lt_after_iff] at x2
                  order
                obtain ⟨w, w1, w2⟩ := hxp.hi_lo
                rw [w1, cut, cutAt_eq] at hxlo
                rw [w2, point_hi, cutAt_eq]
                exact ⟨hxlo.1.symm, rfl⟩
              · exact hno x (.inr hx) hxp ⟨x1, x2.le⟩
            · exact key p hp hpp hrlo
        · have hc' : (VSet.union items).contains v = false := by simpa using hc
          constructor
          · intro hnb
            obtain ⟨s, s1, s2, s3⟩ := h1 (fun h => hnb ⟨h, by rintro ⟨⟨r, hr⟩, -⟩; cases hr⟩)
            refine ⟨s, fun lim => ?_, s2, s3⟩
            simp only [VSet.unionWith, hc', Bool.false_eq_true, if_false, VSet.unionOf, List.flatMap_cons, List.flatMap_nil,
              VSet.extract, List.append_nil]
            exact s1 _
          · intro hbad lim
            simp only [VSet.unionWith, hc', Bool.false_eq_true, if_false, VSet.unionOf, List.flatMap_cons, List.flatMap_nil,
              VSet.extract, List.append_nil]
            exact h2 hbad.1 lim
  | union items =>
    obtain ⟨h1, h2⟩ := mergeSets_spec (l := items) (m := b.extract) hab
    constructor
    · intro hnb
      obtain ⟨s, s1, s2, s3⟩ := h1 (fun h => hnb ⟨h, by rintro ⟨⟨r, hr⟩, -⟩; cases hr⟩)
      refine ⟨s, fun lim => ?_, s2, s3⟩
      simp only [VSet.unionWith, VSet.unionOf, List.flatMap_cons, List.flatMap_nil, List.append_nil]
      exact s1 _
    · intro hbad lim
      simp only [VSet.unionWith, VSet.unionOf, List.flatMap_cons, List.flatMap_nil, List.append_nil]
      exact h2 hbad.1 lim

/-! ### difference -/

/-- The operands on which `difference` is wrong: a range minus a union with an item that covers it, and a union minus
the empty set. -/
def DiffBad (a b : VSet) : Prop :=
  (∃ r items, a = .item (.range r) ∧ b = .union items ∧ ∃ j ∈ items, j.lo ≤ (Item.range r).lo ∧ (Item.range r).hi ≤ j.hi) ∨
  (∃ items, a = .union items ∧ b = .empty)

theorem difference_spec {a b : VSet} (ha : a.Normal) (hb : b.Normal) (hgood : ¬ DiffBad a b) :
    ∃ s, (∀ lim, a.difference lim b = .ok s) ∧ s.Normal ∧ ∀ c, s.Cov c ↔ a.Cov c ∧ ¬ b.Cov c := by
  cases a with
  | empty => exact ⟨.empty, fun lim => by simp [VSet.difference], trivial, fun c => by simp [VSet.Cov, VSet.extract]⟩
  | item i => cases i with
    | point v =>
      by_cases h : b.contains v = true
      · refine ⟨.empty, fun lim => by simp [VSet.difference, h], trivial, ?_⟩
        intro c
        rw [point_cov]
        constructor
        · intro h; exact absurd h (by simp [VSet.Cov, VSet.extract])
        · rintro ⟨rfl, h2⟩; exact absurd ((contains_cov b v).1 h) h2
      · refine ⟨.item (.point v), fun lim => by simp [VSet.difference, h], trivial, ?_⟩
        intro c
        rw [point_cov]
        constructor
        · rintro rfl; exact ⟨rfl, fun h' => h ((contains_cov b v).2 h')⟩
        · exact fun h => h.1
    | range r => cases b with
      | empty => exact ⟨.item (.range r), fun lim => by simp [VSet.difference], ha, fun c => by simp [VSet.Cov, VSet.extract]⟩
      | item j =>
        have lr := (show (Item.range r).Normal from ha).lo_lt_hi
        have lj := (show j.Normal from hb).lo_lt_hi
        by_cases hov : (Item.range r).lo < j.hi ∧ j.lo < (Item.range r).hi
        · obtain ⟨l, r', hp, hd⟩ := differenceItem_overlap (a := .range r) (b := j) ha hb hov.1 hov.2
          have hn : AllNormal (l.toList ++ r'.toList) := by
            intro x hx
            rcases List.mem_append.1 hx with hx | hx
            · exact (hp.left x (Option.mem_toList.1 hx)).1
            · exact (hp.right x (Option.mem_toList.1 hx)).1
          have hg : Gaps (l.toList ++ r'.toList) := by
            cases l with
            | none => cases r' with
              | none => exact gaps_nil
              | some y => exact gaps_single y
            | some x => cases r' with
              | none => exact gaps_single x
              | some y =>
                have hx := hp.left x rfl
                have hy := hp.right y rfl
                show Gaps [x, y]
                unfold Gaps
                rw [List.pairwise_pair, hx.2.2, hy.2.1]; exact lj
          refine ⟨ofItems (l.toList ++ r'.toList), fun lim => hd lim, normal_ofItems hn hg, ?_⟩
          intro c
          rw [ofItems_cov]
          simp only [VSet.Cov, VSet.extract, cov_append, cov_cons, cov_nil, or_false]
          have hl : Cov l.toList c ↔ (Item.range r).lo ≤ c ∧ c < j.lo := by
            cases l with
            | none =>
              have := hp.left_iff.1 rfl
              simp only [Option.toList, cov_nil, false_iff]
              rintro ⟨h1, h2⟩; order
            | some x =>
              have hx := hp.left x rfl
              simp only [Option.toList, cov_cons, cov_nil, or_false, hx.2.1, hx.2.2]
          have hr : Cov r'.toList c ↔ j.hi ≤ c ∧ c < (Item.range r).hi := by
            cases r' with
            | none =>
              have := hp.right_iff.1 rfl
              simp only [Option.toList, cov_nil, false_iff]
              rintro ⟨h1, h2⟩; order
            | some x =>
              have hx := hp.right x rfl
              simp only [Option.toList, cov_cons, cov_nil, or_false, hx.2.1, hx.2.2]
          rw [hl, hr]
          have h1 := hov.1
          have h2 := hov.2
          constructor
          · rintro (⟨h3, h4⟩ | ⟨h3, h4⟩)
            · refine ⟨⟨h3, by order⟩, ?_⟩
              rintro ⟨h5, h6⟩; order
            · refine ⟨⟨by order, h4⟩, ?_⟩
              rintro ⟨h5, h6⟩; order
          · rintro ⟨⟨h3, h4⟩, h5⟩
            by_cases h6 : c < j.lo
            · exact .inl ⟨h3, h6⟩
            · right
              refine ⟨?_, h4⟩
              by_contra h7
              exact h5 ⟨not_lt.1 h6, not_le.1 h7⟩
        · refine ⟨.item (.range r), fun lim => differenceItem_disjoint (a := .range r) ha hb hov lim, ha, ?_⟩
          intro c
          simp only [VSet.Cov, VSet.extract, cov_cons, cov_nil, or_false]
          constructor
          · rintro ⟨h1, h2⟩
            refine ⟨⟨h1, h2⟩, ?_⟩
            rintro ⟨h3, h4⟩
            exact hov ⟨by order, by order⟩
          · exact fun h => h.1
      | union items =>
        have hno : ∀ j ∈ items, ¬ (j.lo ≤ (Item.range r).lo ∧ (Item.range r).hi ≤ j.hi) := by
          intro j hj h
          exact hgood (.inl ⟨r, items, rfl, rfl, j, hj, h⟩)
        obtain ⟨out, o1, o2, o3, -, o5⟩ := differenceIterator_spec items (.range r) ha hb.allNormal hb.gaps hno
        refine ⟨ofItems out, ?_, normal_ofItems o2 o3, ?_⟩
        · intro lim
          simp only [VSet.difference, o1 lim]
          exact unionOf_gaps o2 o3 lim
        · intro c
          rw [ofItems_cov, o5 c]
          simp [VSet.Cov, VSet.extract]
  | union items => cases hbe : b.extract with
    | nil =>
      exfalso
      obtain ⟨-, -, he⟩ := hb.extract
      rw [hbe] at he
      exact hgood (.inr ⟨items, rfl, he⟩)
    | cons o others =>
      have hl : 2 ≤ items.length := ha.1
      cases items with
      | nil => simp at hl
      | cons cur items =>
        have hno := hb.allNormal
        have hgo := hb.gaps
        rw [hbe] at hno hgo
        obtain ⟨out, o1, o2, o3, -, o5⟩ := diffLoop_spec ((cur :: items).length + (o :: others).length + 1) items others cur o
          ha.allNormal ha.gaps hno hgo (by simp; omega)
        refine ⟨ofItems out, ?_, normal_ofItems o2 o3, ?_⟩
        · intro lim
          obtain ⟨d', d1, d2⟩ := o1 lim []
          have : VSet.Diff.compute lim (cur :: items) (o :: others) = .ok out := by
            simp only [VSet.Diff.compute, List.tail_cons, List.head?_cons, d1]
            show Except.ok d'.result.reverse = _
            rw [d2]; simp
          simp only [VSet.difference, hbe, this]
          exact unionOf_gaps o2 o3 lim
        · intro c
          rw [ofItems_cov, o5 c, VSet.Cov, VSet.Cov, hbe]; rfl

/-- The result in the bad cases. -/
theorem difference_bad_covered {r : VRange} {items : List Item} (ha : (Item.range r).Normal) (hb : (VSet.union items).Normal)
    (h : ∃ j ∈ items, j.lo ≤ (Item.range r).lo ∧ (Item.range r).hi ≤ j.hi) (lim : Nat) :
    (VSet.item (.range r)).difference lim (.union items) = .ok (.item (.range r)) := by
  simp only [VSet.difference, differenceIterator_covered lim items (.range r) ha hb.allNormal hb.gaps h]
  exact unionOf_gaps (allNormal_single ha) (gaps_single _) lim

theorem difference_bad_empty (items : List Item) (lim : Nat) : (VSet.union items).difference lim .empty = .ok .empty := by
  have : VSet.Diff.compute lim items [] = .ok [] := by
    cases items <;> simp [VSet.Diff.compute, VSet.Diff.loop, VSet.Diff.step, bind, Except.bind]
  simp only [VSet.difference, VSet.extract, this]
  rfl

theorem universal_cov (c : Cut) : VSet.universal.Cov c ↔ c ≠ ⊤ := by
  simp [VSet.universal, VSet.Cov, VSet.extract, universal_lo, universal_hi, lt_top_iff_ne_top]

theorem cov_lt_top {s : VSet} {c : Cut} (h : s.Cov c) : c ≠ ⊤ := by
  obtain ⟨i, -, h1, h2⟩ := h
  exact (lt_of_lt_of_le h2 le_top).ne

theorem complement_spec {a : VSet} (ha : a.Normal) :
    ∃ s, (∀ lim, a.complement lim = .ok s) ∧ s.Normal ∧ ∀ c, s.Cov c ↔ c ≠ ⊤ ∧ ¬ a.Cov c := by
  cases a with
  | empty => exact ⟨.universal, fun lim => rfl, universal_normal, fun c => by rw [universal_cov]; simp [VSet.Cov, VSet.extract]⟩
  | item i =>
    obtain ⟨s, s1, s2, s3⟩ := difference_spec (a := .universal) (b := .item i) universal_normal ha (by
      rintro (⟨r, items, -, h, -⟩ | ⟨items, h, -⟩) <;> cases h)
    exact ⟨s, s1, s2, fun c => by rw [s3 c, universal_cov]⟩
  | union l =>
    obtain ⟨s, s1, s2, s3⟩ := difference_spec (a := .universal) (b := .union l) universal_normal ha (by
      rintro (⟨r, items, h, h', j, hj, h1, h2⟩ | ⟨items, h, -⟩)
      · cases h'
        have hr : Item.range r = universalItem := by
          have := VSet.item.inj h; exact this.symm
        rw [hr, universal_lo, le_bot_iff] at h1
        rw [hr, universal_hi, top_le_iff] at h2
        have hl : 2 ≤ l.length := ha.1
        have hg := ha.gaps
        simp only [VSet.extract] at hg
        match l, hl, hj, hg with
        | x :: y :: l, _, hj, hg =>
          rcases List.mem_cons.1 hj with rfl | hj
          · have := hg.head y (by simp)
            rw [h2] at this
            exact absurd this not_top_lt
          · have := hg.head j hj
            rw [h1] at this
            exact absurd this not_lt_bot
      · cases h)
    exact ⟨s, s1, s2, fun c => by rw [s3 c, universal_cov]⟩

/-! ### equality, inclusion, overlap -/

theorem eq_iff_cov {a b : VSet} (ha : a.Normal) (hb : b.Normal) : a.eq b = true ↔ ∀ c, a.Cov c ↔ b.Cov c := by
  obtain ⟨na, ga, ea⟩ := ha.extract
  obtain ⟨nb, gb, eb⟩ := hb.extract
  have hlist : ∀ xs ys : List Item, AllNormal xs → AllNormal ys →
      ((xs.length == ys.length && (xs.zip ys).all (fun p => p.1.eq p.2)) = true ↔
        xs.map (fun i => (i.lo, i.hi)) = ys.map (fun i => (i.lo, i.hi))) := by
    intro xs
    induction xs with
    | nil => intro ys _ _; cases ys <;> simp
    | cons x xs ih =>
      intro ys hx hy
      cases ys with
      | nil => simp
      | cons y ys =>
        have := ih ys hx.tail hy.tail
        have he := item_eq_iff hx.head.endsOk hy.head.endsOk
        simp only [List.length_cons, List.zip_cons_cons, List.all_cons, List.map_cons, List.cons.injEq, Prod.mk.injEq,
          Bool.and_eq_true, beq_iff_eq, Nat.add_right_cancel_iff, he] at this ⊢
        rw [← this]; tauto
  have hmap : (∀ c, a.Cov c ↔ b.Cov c) ↔ a.extract.map (fun i => (i.lo, i.hi)) = b.extract.map (fun i => (i.lo, i.hi)) := by
    constructor
    · exact cov_ext na ga nb gb
    · intro h c
      have hc : ∀ l : List Item, Cov l c ↔ ∃ p ∈ l.map (fun i => (i.lo, i.hi)), p.1 ≤ c ∧ c < p.2 := by
        intro l
        simp [Cov]
      unfold VSet.Cov
      rw [hc, hc, h]
  rw [hmap]
  cases a with
  | empty => cases b with
    | empty => simp [VSet.eq]
    | item j => simp [VSet.eq, VSet.extract]
    | union ys =>
      have : 2 ≤ ys.length := hb.1
      cases ys with
      | nil => simp at this
      | cons y ys => simp [VSet.eq, VSet.extract]
  | item i => cases b with
    | empty => simp [VSet.eq, VSet.extract]
    | item j =>
      simp only [VSet.eq, VSet.extract, List.map_cons, List.map_nil, List.cons.injEq, Prod.mk.injEq, and_true]
      exact item_eq_iff (show i.Normal from ha).endsOk (show j.Normal from hb).endsOk
    | union ys =>
      have : 2 ≤ ys.length := hb.1
      match ys, this with
      | y :: y' :: ys, _ => simp [VSet.eq, VSet.extract]
  | union xs =>
    have hl : 2 ≤ xs.length := ha.1
    cases b with
    | empty => match xs, hl with
      | y :: y' :: ys, _ => simp [VSet.eq, VSet.extract]
    | item j => match xs, hl with
      | y :: y' :: ys, _ => simp [VSet.eq, VSet.extract]
    | union ys => exact hlist xs ys na nb

theorem includes_iff_cov {a b : VSet} (ha : a.Normal) (hb : b.Normal) : a.includes b = true ↔ ∀ c, b.Cov c → a.Cov c := by
  have key := cov_subset_iff ha.allNormal ha.gaps hb.allNormal
  unfold VSet.Cov
  rw [← key]
  cases a with
  | empty =>
    simp only [VSet.includes, VSet.extract, List.not_mem_nil, false_and, exists_false]
    cases b with
    | empty => simp [VSet.isEmpty, VSet.extract]
    | item j => simp [VSet.isEmpty, VSet.extract, isEmpty_false (show j.Normal from hb)]
    | union ys =>
      have : 2 ≤ ys.length := hb.1
      match ys, this with
      | y :: y' :: ys, _ =>
        simp only [VSet.isEmpty, VSet.extract, Bool.false_eq_true, false_iff]
        exact fun h => h y (by simp)
  | item i => cases i with
    | range r => cases b with
      | empty => simp [VSet.includes, VSet.extract]
      | item j =>
        simp only [VSet.includes, VSet.extract, List.mem_singleton, forall_eq, exists_eq_left]
        exact includesItem_iff (a := .range r) ha hb
      | union ys =>
        simp only [VSet.includes, VSet.extract, List.all_eq_true, List.mem_singleton, exists_eq_left]
        exact forall₂_congr (fun y hy => includesItem_iff (a := .range r) ha (hb.allNormal y hy))
    | point v => cases b with
      | empty => simp [VSet.includes, VSet.extract]
      | item j =>
        simp only [VSet.includes, VSet.extract, List.mem_singleton, forall_eq, exists_eq_left]
        exact includesItem_iff (a := .point v) ha hb
      | union ys =>
        simp only [VSet.includes, VSet.extract, Bool.false_eq_true, List.mem_singleton, exists_eq_left, false_iff]
        intro h
        have hl : 2 ≤ ys.length := hb.1
        have hg := hb.gaps
        have hn := hb.allNormal
        simp only [VSet.extract] at hg hn
        match ys, hl, hg, hn, h with
        | y :: y' :: ys, _, hg, hn, h =>
          have h1 := h y (by simp)
          have h2 := h y' (by simp)
          have h3 := hg.head y' (by simp)
          have h4 := hn.head.lo_lt_hi
          have h5 := hn.tail.head.lo_lt_hi
          simp only [point_lo, point_hi] at h1 h2
          have h6 := (before_lt_iff y.hi v).1 (by order)
          order
  | union xs => exact includesLoop_spec _ xs b.extract le_rfl ha.allNormal ha.gaps hb.allNormal hb.gaps

theorem overlap_iff_cov {xs ys : List Item} (hx : AllNormal xs) (hy : AllNormal ys) :
    (∃ x ∈ xs, ∃ y ∈ ys, x.lo < y.hi ∧ y.lo < x.hi) ↔ ∃ c, Cov xs c ∧ Cov ys c := by
  constructor
  · rintro ⟨x, hx', y, hy', h1, h2⟩
    refine ⟨max x.lo y.lo, ⟨x, hx', le_max_left _ _, max_lt (hx x hx').lo_lt_hi h2⟩,
      ⟨y, hy', le_max_right _ _, max_lt h1 (hy y hy').lo_lt_hi⟩⟩
  · rintro ⟨c, ⟨x, hx, h1, h2⟩, ⟨y, hy, h3, h4⟩⟩
    exact ⟨x, hx, y, hy, by order, by order⟩

theorem intersects_iff_cov {a b : VSet} (ha : a.Normal) (hb : b.Normal) :
    a.intersects b = true ↔ ∃ c, a.Cov c ∧ b.Cov c := by
  unfold VSet.Cov
  rw [← overlap_iff_cov ha.allNormal hb.allNormal]
  cases a with
  | empty => simp [VSet.intersects, VSet.extract]
  | item i => cases i with
    | range r => cases b with
      | empty => simp [VSet.intersects, VSet.extract]
      | item j =>
        simp only [VSet.intersects, VSet.extract, List.mem_singleton, exists_eq_left]
        exact intersectsItem_iff (a := .range r) ha hb
      | union ys =>
        simp only [VSet.intersects, VSet.extract, List.any_eq_true, List.mem_singleton, exists_eq_left]
        exact exists_congr (fun y => and_congr_right (fun hy => intersectsItem_iff (a := .range r) ha (hb.allNormal y hy)))
    | point v =>
      rw [VSet.intersects, contains_cov]
      simp only [VSet.extract, List.mem_singleton, exists_eq_left, point_lo, point_hi]
      unfold VSet.Cov Cov
      refine exists_congr (fun y => and_congr_right (fun hy => ?_))
      rw [lt_after_iff]
      exact and_comm
  | union xs => exact intersectsLoop_spec _ xs b.extract le_rfl ha.allNormal ha.gaps hb.allNormal hb.gaps

theorem subset_versions {a b : VSet} (ha : a.Wf) (hb : b.Wf) :
    (∀ c, b.Cov c → a.Cov c) ↔ ∀ v : Version, v.Wf → b.Mem v → a.Mem v := by
  constructor
  · intro h v _ hv
    rw [mem_iff_cov] at hv ⊢
    exact h _ hv
  · intro h
    apply cov_of_versions ha.extract hb.extract
    intro v hv hc
    have := h v hv ((mem_iff_cov _ _).2 hc)
    exact (mem_iff_cov _ _).1 this

theorem overlap_versions {a b : VSet} (ha : a.Wf) (hb : b.Wf) :
    (∃ c, a.Cov c ∧ b.Cov c) ↔ ∃ v : Version, v.Wf ∧ a.Mem v ∧ b.Mem v := by
  constructor
  · rintro ⟨c, ⟨x, hx, h1, h2⟩, ⟨y, hy, h3, h4⟩⟩
    have gl : GoodCut (max x.lo y.lo) := by
      rcases le_total x.lo y.lo with h | h <;> [rw [max_eq_right h]; rw [max_eq_left h]]
      · exact (hb.extract y hy).lo
      · exact (ha.extract x hx).lo
    have gh : GoodCut (min x.hi y.hi) := by
      rcases le_total x.hi y.hi with h | h <;> [rw [min_eq_left h]; rw [min_eq_right h]]
      · exact (ha.extract x hx).hi
      · exact (hb.extract y hy).hi
    obtain ⟨v, hv, v1, v2⟩ := exists_between gl gh (lt_of_le_of_lt (max_le h1 h3) (lt_min h2 h4))
    rw [sup_le_iff] at v1
    rw [lt_inf_iff] at v2
    exact ⟨v, hv, (mem_iff_cov _ _).2 ⟨x, hx, v1.1, v2.1⟩, (mem_iff_cov _ _).2 ⟨y, hy, v1.2, v2.2⟩⟩
  · rintro ⟨v, -, h1, h2⟩
    exact ⟨cut v, (mem_iff_cov _ _).1 h1, (mem_iff_cov _ _).1 h2⟩

end Verif
