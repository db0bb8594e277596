import Verif.Proofs.Loops
/-!
# The loops of intersection, inclusion and overlap
-/
set_option linter.unusedSimpArgs false

namespace Verif
open scoped Verif

theorem VSet.intersectionLoop_nil (xs : List Item) : VSet.intersectionLoop xs [] = .ok [] := by
  cases xs <;> simp [VSet.intersectionLoop]

theorem lowBound_nil (b : Cut) : LowBound b [] := by intro x hx; cases hx

theorem intersectionLoop_spec (n : Nat) : ∀ xs ys : List Item, xs.length + ys.length ≤ n →
    AllNormal xs → Gaps xs → AllNormal ys → Gaps ys →
    ∃ out, VSet.intersectionLoop xs ys = .ok out ∧ AllNormal out ∧ Gaps out ∧
      (∀ b, LowBound b xs → LowBound b out) ∧ (∀ b, LowBound b ys → LowBound b out) ∧
      ∀ c, Cov out c ↔ Cov xs c ∧ Cov ys c := by
  induction n with
  | zero =>
    intro xs ys h _ _ _ _
    obtain rfl : xs = [] := List.eq_nil_of_length_eq_zero (by omega)
    exact ⟨[], by simp [VSet.intersectionLoop], allNormal_nil, gaps_nil, fun b _ => lowBound_nil b, fun b _ => lowBound_nil b, by simp⟩
  | succ n ih =>
    intro xs ys hlen hnx hgx hny hgy
    match xs, ys with
    | [], ys =>
      exact ⟨[], by simp [VSet.intersectionLoop], allNormal_nil, gaps_nil, fun b _ => lowBound_nil b, fun b _ => lowBound_nil b, by simp⟩
    | x :: xs, [] =>
      exact ⟨[], by simp [VSet.intersectionLoop], allNormal_nil, gaps_nil, fun b _ => lowBound_nil b, fun b _ => lowBound_nil b, by simp⟩
    | x :: xs, y :: ys =>
      have lx := hnx.head.lo_lt_hi
      have ly := hny.head.lo_lt_hi
      have ehigh := isHigher_iff hny.head.endsOk hnx.head.endsOk
      have hcx : ∀ c, Cov xs c → x.hi < c := by
        rintro c ⟨i, hi, h1, h2⟩
        have := hgx.head i hi; order
      have hcy : ∀ c, Cov ys c → y.hi < c := by
        rintro c ⟨i, hi, h1, h2⟩
        have := hgy.head i hi; order
      -- the recursive call, with everything it drops accounted for
      have hrest : ∃ rest, (if y.isHigher x = true then VSet.intersectionLoop xs (y :: ys)
            else VSet.intersectionLoop (x :: xs) ys) = .ok rest ∧ AllNormal rest ∧ Gaps rest ∧
          (∀ z ∈ rest, min x.hi y.hi < z.lo) ∧ (∀ b, LowBound b (x :: xs) → LowBound b rest) ∧
          (∀ b, LowBound b (y :: ys) → LowBound b rest) ∧
          ∀ c, (Cov (x :: xs) c ∧ Cov (y :: ys) c) ↔ ((max x.lo y.lo ≤ c ∧ c < min x.hi y.hi) ∨ Cov rest c) := by
        by_cases h : x.hi < y.hi
        · obtain ⟨out, o1, o2, o3, o4, o5, o6⟩ := ih xs (y :: ys) (by simp at hlen ⊢; omega) hnx.tail hgx.tail hny hgy
          refine ⟨out, by rw [if_pos (ehigh.2 h)]; exact o1, o2, o3, ?_, ?_, o5, ?_⟩
          · intro z hz
            rw [min_eq_left h.le]
            -- pieces come from later items of xs
            have hzn := (o2 z hz).lo_lt_hi
            have hz' : Cov out z.lo := ⟨z, hz, le_rfl, hzn⟩
            exact hcx _ ((o6 _).1 hz').1
          · intro b hb; exact o4 b (fun i hi => hb i (List.mem_cons_of_mem _ hi))
          · intro c
            rw [o6 c, min_eq_left h.le, sup_le_iff, cov_cons (i := x)]
            constructor
            · rintro ⟨h1 | h1, h2⟩
              · left
                refine ⟨⟨h1.1, ?_⟩, h1.2⟩
                exact h2.ge (lowBound_head hny hgy)
              · exact .inr ⟨h1, h2⟩
            · rintro (⟨⟨h1, h2⟩, h3⟩ | ⟨h1, h2⟩)
              · exact ⟨.inl ⟨h1, h3⟩, by rw [cov_cons]; exact .inl ⟨h2, by order⟩⟩
              · exact ⟨.inr h1, h2⟩
        · obtain ⟨out, o1, o2, o3, o4, o5, o6⟩ := ih (x :: xs) ys (by simp at hlen ⊢; omega) hnx hgx hny.tail hgy.tail
          have h := not_lt.1 h
          refine ⟨out, by rw [if_neg (fun g => absurd (ehigh.1 g) (not_lt_of_ge h))]; exact o1, o2, o3, ?_, o4, ?_, ?_⟩
          · intro z hz
            rw [min_eq_right h]
            have hzn := (o2 z hz).lo_lt_hi
            have hz' : Cov out z.lo := ⟨z, hz, le_rfl, hzn⟩
            exact hcy _ ((o6 _).1 hz').2
          · intro b hb; exact o5 b (fun i hi => hb i (List.mem_cons_of_mem _ hi))
          · intro c
            rw [o6 c, min_eq_right h, sup_le_iff, cov_cons (i := y)]
            constructor
            · rintro ⟨h1, h2 | h2⟩
              · left
                exact ⟨⟨h1.ge (lowBound_head hnx hgx), h2.1⟩, h2.2⟩
              · exact .inr ⟨h1, h2⟩
            · rintro (⟨⟨h1, h2⟩, h3⟩ | ⟨h1, h2⟩)
              · exact ⟨by rw [cov_cons]; exact .inl ⟨h1, by order⟩, .inl ⟨h2, h3⟩⟩
              · exact ⟨h1, .inr h2⟩
      obtain ⟨rest, r1, r2, r3, r4, r5, r6, r7⟩ := hrest
      have hstep : ∀ t, x.intersectionItem y = .ok t → VSet.intersectionLoop (x :: xs) (y :: ys) =
          (match t with | .item i => .ok (i :: rest) | _ => .ok rest) := by
        intro t ht
        rw [VSet.intersectionLoop, ht]
        cases hh : y.isHigher x with
        | true =>
          rw [hh, if_pos rfl] at r1
          simp only [bind, Except.bind, if_true, r1]
          cases t <;> rfl
        | false =>
          rw [hh, if_neg (by simp)] at r1
          simp only [bind, Except.bind, Bool.false_eq_true, if_false, r1]
          cases t <;> rfl
      rcases intersectionItem_spec hnx.head hny.head with ⟨h1, h2, i, i1, i2, i3, i4⟩ | ⟨h1, h2⟩
      · refine ⟨i :: rest, ?_, r2.cons i2, r3.cons ?_, ?_, ?_, ?_⟩
        · rw [hstep _ i1]
        · intro z hz; rw [i4]; exact r4 z hz
        · intro b hb z hz
          rcases List.mem_cons.1 hz with rfl | hz
          · rw [i3]; exact (hb x (by simp)).trans (le_max_left _ _)
          · exact r5 b hb z hz
        · intro b hb z hz
          rcases List.mem_cons.1 hz with rfl | hz
          · rw [i3]; exact (hb y (by simp)).trans (le_max_right _ _)
          · exact r6 b hb z hz
        · intro c
          rw [cov_cons, i3, i4]; exact (r7 c).symm
      · refine ⟨rest, ?_, r2, r3, r5, r6, ?_⟩
        · rw [hstep _ h2]
        · intro c
          rw [r7 c]
          constructor
          · exact .inr
          · rintro (⟨g1, g2⟩ | h)
            · exfalso
              rw [sup_le_iff] at g1
              rw [lt_inf_iff] at g2
              exact h1 ⟨lt_of_le_of_lt g1.1 g2.2, lt_of_le_of_lt g1.2 g2.1⟩
            · exact h

theorem intersectsLoop_spec (n : Nat) : ∀ xs ys : List Item, xs.length + ys.length ≤ n →
    AllNormal xs → Gaps xs → AllNormal ys → Gaps ys →
    (VSet.intersectsLoop xs ys = true ↔ ∃ x ∈ xs, ∃ y ∈ ys, x.lo < y.hi ∧ y.lo < x.hi) := by
  induction n with
  | zero =>
    intro xs ys h _ _ _ _
    obtain rfl : xs = [] := List.eq_nil_of_length_eq_zero (by omega)
    simp [VSet.intersectsLoop]
  | succ n ih =>
    intro xs ys hlen hnx hgx hny hgy
    match xs, ys with
    | [], ys => simp [VSet.intersectsLoop]
    | x :: xs, [] => simp [VSet.intersectsLoop]
    | x :: xs, y :: ys =>
      have lx := hnx.head.lo_lt_hi
      have ly := hny.head.lo_lt_hi
      have ehigh := isHigher_iff hny.head.endsOk hnx.head.endsOk
      have hint := intersectsItem_iff hnx.head hny.head
      rw [VSet.intersectsLoop]
      by_cases h : x.intersectsItem y = true
      · simp only [h, if_true, true_iff]
        exact ⟨x, by simp, y, by simp, hint.1 h⟩
      · rw [if_neg h]
        rw [hint] at h
        by_cases hh : x.hi < y.hi
        · rw [if_pos (ehigh.2 hh), ih xs (y :: ys) (by simp at hlen ⊢; omega) hnx.tail hgx.tail hny hgy]
          constructor
          · rintro ⟨i, hi, hr⟩
            exact ⟨i, List.mem_cons_of_mem _ hi, hr⟩
          · rintro ⟨i, hi, j, hj, h1, h2⟩
            rcases List.mem_cons.1 hi with rfl | hi
            · exfalso
              rcases List.mem_cons.1 hj with rfl | hj
              · exact h ⟨h1, h2⟩
              · have := hgy.head j hj
                order
            · exact ⟨i, hi, j, hj, h1, h2⟩
        · rw [if_neg (fun g => hh (ehigh.1 g)), ih (x :: xs) ys (by simp at hlen ⊢; omega) hnx hgx hny.tail hgy.tail]
          constructor
          · rintro ⟨i, hi, j, hj, hr⟩
            exact ⟨i, hi, j, List.mem_cons_of_mem _ hj, hr⟩
          · rintro ⟨i, hi, j, hj, h1, h2⟩
            rcases List.mem_cons.1 hj with rfl | hj
            · exfalso
              rcases List.mem_cons.1 hi with rfl | hi
              · exact h ⟨h1, h2⟩
              · have := hgx.head i hi
                order
            · exact ⟨i, hi, j, hj, h1, h2⟩

theorem includesLoop_spec (n : Nat) : ∀ xs ys : List Item, xs.length + ys.length ≤ n →
    AllNormal xs → Gaps xs → AllNormal ys → Gaps ys →
    (VSet.includesLoop xs ys = true ↔ ∀ y ∈ ys, ∃ x ∈ xs, x.lo ≤ y.lo ∧ y.hi ≤ x.hi) := by
  induction n with
  | zero =>
    intro xs ys h _ _ _ _
    obtain rfl : ys = [] := List.eq_nil_of_length_eq_zero (by omega)
    simp [VSet.includesLoop]
  | succ n ih =>
    intro xs ys hlen hnx hgx hny hgy
    match xs, ys with
    | xs, [] => simp [VSet.includesLoop]
    | [], y :: ys =>
      simp only [VSet.includesLoop, Bool.false_eq_true, false_iff]
      intro h
      obtain ⟨x, hx, -⟩ := h y (by simp)
      cases hx
    | x :: xs, y :: ys =>
      have lx := hnx.head.lo_lt_hi
      have ly := hny.head.lo_lt_hi
      have hinc := includesItem_iff hnx.head hny.head
      rw [VSet.includesLoop]
      by_cases h : x.includesItem y = true
      · rw [if_pos h, ih (x :: xs) ys (by simp at hlen ⊢; omega) hnx hgx hny.tail hgy.tail]
        constructor
        · intro g j hj
          rcases List.mem_cons.1 hj with rfl | hj
          · exact ⟨x, by simp, hinc.1 h⟩
          · exact g j hj
        · exact fun g j hj => g j (List.mem_cons_of_mem _ hj)
      · rw [if_neg h, ih xs (y :: ys) (by simp at hlen ⊢; omega) hnx.tail hgx.tail hny hgy]
        rw [hinc] at h
        constructor
        · intro g j hj
          obtain ⟨i, hi, hr⟩ := g j hj
          exact ⟨i, List.mem_cons_of_mem _ hi, hr⟩
        · intro g j hj
          obtain ⟨i, hi, h1, h2⟩ := g j hj
          rcases List.mem_cons.1 hi with rfl | hi
          · exfalso
            rcases List.mem_cons.1 hj with rfl | hj
            · exact h ⟨h1, h2⟩
            · -- then `x` starts before `y`; the item holding `y` is not `x`, so it lies above `x`, hence above `j`
              obtain ⟨k, hk, h3, h4⟩ := g y (by simp)
              have hj' := hgy.head j hj
              have lj := (hny j (List.mem_cons_of_mem _ hj)).lo_lt_hi
              rcases List.mem_cons.1 hk with rfl | hk
              · exact h ⟨h3, h4⟩
              · have := hgx.head k hk
                order
          · exact ⟨i, hi, h1, h2⟩

/-- Inclusion of sorted lists with gaps, in terms of cuts. -/
theorem cov_subset_iff {xs ys : List Item} (hnx : AllNormal xs) (hgx : Gaps xs) (hny : AllNormal ys) :
    (∀ y ∈ ys, ∃ x ∈ xs, x.lo ≤ y.lo ∧ y.hi ≤ x.hi) ↔ ∀ c, Cov ys c → Cov xs c := by
  constructor
  · rintro h c ⟨y, hy, h1, h2⟩
    obtain ⟨x, hx, h3, h4⟩ := h y hy
    exact ⟨x, hx, by order, by order⟩
  · intro h y hy
    have ly := (hny y hy).lo_lt_hi
    obtain ⟨x, hx, h1, h2⟩ := h y.lo ⟨y, hy, le_rfl, ly⟩
    refine ⟨x, hx, h1, ?_⟩
    by_contra h3
    have h3 := not_le.1 h3
    obtain ⟨x', hx', h4, h5⟩ := h x.hi ⟨y, hy, h2.le, h3⟩
    have lx := (hnx x hx).lo_lt_hi
    have lx' := (hnx x' hx').lo_lt_hi
    have hg' := List.pairwise_iff_getElem.1 hgx
    obtain ⟨i, hi, rfl⟩ := List.mem_iff_getElem.1 hx
    obtain ⟨j, hj, rfl⟩ := List.mem_iff_getElem.1 hx'
    rcases Nat.lt_trichotomy i j with h | h | h
    · have := hg' i j hi hj h; order
    · subst h; order
    · have := hg' j i hj hi h; order

/-- Two normal lists covering the same cuts have the same ends. -/
theorem cov_ext {xs ys : List Item} (hnx : AllNormal xs) (hgx : Gaps xs) (hny : AllNormal ys) (hgy : Gaps ys)
    (h : ∀ c, Cov xs c ↔ Cov ys c) : xs.map (fun i => (i.lo, i.hi)) = ys.map (fun i => (i.lo, i.hi)) := by
  have h1 := (cov_subset_iff hnx hgx hny).2 (fun c => (h c).2)
  have h2 := (cov_subset_iff hny hgy hnx).2 (fun c => (h c).1)
  clear h
  induction xs generalizing ys with
  | nil => cases ys with
    | nil => rfl
    | cons y ys => obtain ⟨x, hx, -⟩ := h1 y (by simp); cases hx
  | cons x xs ih => cases ys with
    | nil => obtain ⟨x, hx, -⟩ := h2 x (by simp); cases hx
    | cons y ys =>
      have lx := hnx.head.lo_lt_hi
      have ly := hny.head.lo_lt_hi
      have hxy : x.lo = y.lo ∧ x.hi = y.hi := by
        obtain ⟨x', hx', a1, a2⟩ := h1 y (by simp)
        obtain ⟨y', hy', b1, b2⟩ := h2 x (by simp)
        rcases List.mem_cons.1 hx' with rfl | hx'
        · rcases List.mem_cons.1 hy' with rfl | hy'
          · constructor <;> order
          · have := hgy.head y' hy'; order
        · have := hgx.head x' hx'
          rcases List.mem_cons.1 hy' with rfl | hy'
          · order
          · have := hgy.head y' hy'; order
      simp only [List.map_cons, hxy]
      congr 1
      apply ih hnx.tail hgx.tail hny.tail hgy.tail
      · intro y' hy'
        obtain ⟨x', hx', a1, a2⟩ := h1 y' (List.mem_cons_of_mem _ hy')
        have ly' := (hny y' (List.mem_cons_of_mem _ hy')).lo_lt_hi
        rcases List.mem_cons.1 hx' with rfl | hx'
        · have := hgy.head y' hy'; have := hxy.1; have := hxy.2; order
        · exact ⟨x', hx', a1, a2⟩
      · intro x' hx'
        obtain ⟨y', hy', a1, a2⟩ := h2 x' (List.mem_cons_of_mem _ hx')
        have lx' := (hnx x' (List.mem_cons_of_mem _ hx')).lo_lt_hi
        rcases List.mem_cons.1 hy' with rfl | hy'
        · have := hgx.head x' hx'; have := hxy.1; have := hxy.2; order
        · exact ⟨y', hy', a1, a2⟩

end Verif
