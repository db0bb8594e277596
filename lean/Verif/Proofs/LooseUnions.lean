import Verif.Proofs.SetLevel2
/-!
# The loops of the set operations on items in any order

The specifications in `Loops` and `Loops2` are about items in order with gaps. Here the items of either side may come in any
order and may overlap.
-/
set_option linter.unusedSimpArgs false

namespace Verif
open scoped Verif

/-- `xs` covers no more than `ys`, and at least what `ys` covers and `zs` does not. -/
def DiffBetween (xs ys zs : List Item) : Prop :=
  (∀ c, Cov xs c → Cov ys c) ∧ ∀ c, Cov ys c → ¬ Cov zs c → Cov xs c

theorem differenceItem_cov {a b : Item} (ha : a.Normal) (hb : b.Normal) :
    ∃ l, (∀ lim, a.differenceItem lim b = .ok (ofItems l)) ∧ l.length ≤ 2 ∧ AllNormal l ∧
      ∀ c, Cov l c ↔ (a.lo ≤ c ∧ c < a.hi) ∧ ¬ (b.lo ≤ c ∧ c < b.hi) := by
  have la := ha.lo_lt_hi
  have lb := hb.lo_lt_hi
  by_cases h : a.lo < b.hi ∧ b.lo < a.hi
  · obtain ⟨l, r, hp, h3⟩ := differenceItem_overlap ha hb h.1 h.2
    refine ⟨l.toList ++ r.toList, h3, ?_, ?_, ?_⟩
    · cases l <;> cases r <;> simp
    · intro x hx
      rcases List.mem_append.1 hx with hx | hx
      · exact (hp.left x (by simpa using hx)).1
      · exact (hp.right x (by simpa using hx)).1
    · obtain ⟨h1, h2⟩ := h
      intro c
      rw [cov_append]
      have hl : Cov l.toList c ↔ a.lo ≤ c ∧ c < b.lo := by
        cases hl : l with
        | none =>
          have := hp.left_iff.1 hl
          simp only [Option.toList_none, cov_nil, false_iff]
          rintro ⟨h4, h5⟩; order
        | some x =>
          obtain ⟨-, h4, h5⟩ := hp.left x hl
          simp [h4, h5]
      have hr : Cov r.toList c ↔ b.hi ≤ c ∧ c < a.hi := by
        cases hr : r with
        | none =>
          have := hp.right_iff.1 hr
          simp only [Option.toList_none, cov_nil, false_iff]
          rintro ⟨h4, h5⟩; order
        | some x =>
          obtain ⟨-, h4, h5⟩ := hp.right x hr
          simp [h4, h5]
      rw [hl, hr]
      constructor
      · rintro (⟨h4, h5⟩ | ⟨h4, h5⟩)
        · exact ⟨⟨h4, by order⟩, fun h6 => absurd h5 (not_lt.2 h6.1)⟩
        · exact ⟨⟨by order, h5⟩, fun h6 => absurd h6.2 (not_lt.2 h4)⟩
      · rintro ⟨⟨h4, h5⟩, h6⟩
        by_cases h7 : b.lo ≤ c
        · exact .inr ⟨not_lt.1 fun h8 => h6 ⟨h7, h8⟩, h5⟩
        · exact .inl ⟨h4, not_le.1 h7⟩
  · refine ⟨[a], fun lim => differenceItem_disjoint ha hb h lim, by simp, allNormal_single ha, fun c => ?_⟩
    rw [cov_cons, cov_nil, or_false]
    refine ⟨fun h1 => ⟨h1, fun h2 => h ⟨?_, ?_⟩⟩, fun h1 => h1.1⟩ <;> order

/-! ### `difference_iterator` -/

theorem differenceIterator_loose (items : List Item) : ∀ cur : Item, cur.Normal → AllNormal items →
    ∃ out, (∀ lim, cur.differenceIterator lim items = .ok out) ∧ AllNormal out ∧ DiffBetween out [cur] items := by
  induction items with
  | nil => exact fun cur hc _ => ⟨[cur], fun _ => rfl, allNormal_single hc, fun c h => h, fun c h _ => h⟩
  | cons it rest ih =>
    intro cur hc hn
    have rest_le : ∀ {c : Cut}, ¬ Cov (it :: rest) c → ¬ Cov rest c := fun h h' => h ((cov_cons _ _ _).2 (.inr h'))
    by_cases h1 : it.isStrictlyLower cur = true
    · obtain ⟨out, o1, o2, o3, o4⟩ := ih cur hc hn.tail
      exact ⟨out, fun lim => by rw [Item.differenceIterator, if_pos h1]; exact o1 lim, o2, o3, fun c h h' => o4 c h (rest_le h')⟩
    · by_cases h2 : it.isStrictlyHigher cur = true
      · exact ⟨[cur], fun lim => by rw [Item.differenceIterator, if_neg h1, if_pos h2], allNormal_single hc, fun c h => h, fun c h _ => h⟩
      · obtain ⟨l, d1, d2, d3, d4⟩ := differenceItem_cov hc hn.head
        have hd : ∀ {c : Cut}, Cov [cur] c → ¬ Cov (it :: rest) c → Cov l c := by
          intro c h h'
          rw [cov_cons, not_or] at h'
          exact (d4 c).2 ⟨by simpa using h, h'.1⟩
        have hd' : ∀ {c : Cut}, Cov l c → Cov [cur] c := fun h => by simpa using ((d4 _).1 h).1
        match l, d1, d2, d3, @hd, @hd' with
        | [], d1, _, _, hd, _ =>
          obtain ⟨out, o1, o2, o3, o4⟩ := ih cur hc hn.tail
          refine ⟨out, fun lim => ?_, o2, o3, fun c h h' => o4 c h (rest_le h')⟩
          rw [Item.differenceIterator, if_neg h1, if_neg h2, d1]
          exact o1 lim
        | [x], d1, _, d3, hd, hd' =>
          obtain ⟨out, o1, o2, o3, o4⟩ := ih x d3.head hn.tail
          refine ⟨out, fun lim => ?_, o2, fun c h => hd' (o3 c h), fun c h h' => o4 c (hd h h') (rest_le h')⟩
          rw [Item.differenceIterator, if_neg h1, if_neg h2, d1]
          exact o1 lim
        | [x, y], d1, _, d3, hd, hd' =>
          obtain ⟨out, o1, o2, o3, o4⟩ := ih y d3.tail.head hn.tail
          refine ⟨x :: out, fun lim => ?_, o2.cons d3.head, ?_, ?_⟩
          · rw [Item.differenceIterator, if_neg h1, if_neg h2, d1]
            simp only [ofItems, bind, Except.bind, o1 lim]
          · intro c h
            rcases (cov_cons _ _ _).1 h with h | h
            · exact hd' ((cov_cons _ _ _).2 (.inl h))
            · exact hd' ((cov_cons _ _ _).2 (.inr (o3 c h)))
          · intro c h h'
            rcases (cov_cons _ _ _).1 (hd h h') with h5 | h5
            · exact (cov_cons _ _ _).2 (.inl h5)
            · exact (cov_cons _ _ _).2 (.inr (o4 c h5 (rest_le h')))
        | _ :: _ :: _ :: _, _, d2, _, _, _ => simp at d2

/-! ### `ItemsDifference` -/

theorem Cov.perm {l m : List Item} (h : l.Perm m) (c : Cut) : Cov l c ↔ Cov m c := by
  unfold Cov; simp only [h.mem_iff]

open VSet (Diff) in
theorem diffLoop_loose (fuel : Nat) : ∀ (items others : List Item) (cur oth : Item),
    AllNormal (cur :: items) → AllNormal (oth :: others) → items.length + others.length < fuel →
    ∃ out, (∀ lim result, ∃ d', Diff.loop lim fuel ⟨items, others, some cur, some oth, result⟩ = .ok d' ∧
        d'.result = out.reverse ++ result) ∧ AllNormal out ∧ DiffBetween out (cur :: items) (oth :: others) := by
  induction fuel with
  | zero => intro items others cur oth _ _ h; omega
  | succ fuel ih =>
    intro items others cur oth hn hno hfuel
    have rest_le : ∀ {c : Cut}, ¬ Cov (oth :: others) c → ¬ Cov others c := fun h h' => h ((cov_cons _ _ _).2 (.inr h'))
    -- what `next_other_current` leads to, from any `current`
    have hother : ∀ x : Item, x.Normal → ∃ out, (∀ lim result, ∃ d',
        (match VSet.Diff.nextOtherCurrent ⟨items, others, some x, some oth, result⟩ with
          | (d, true) => Diff.loop lim fuel d
          | (d, false) => .ok d) = .ok d' ∧ d'.result = out.reverse ++ result) ∧ AllNormal out ∧ DiffBetween out (x :: items) others := by
      intro x hx
      cases others with
      | nil =>
        refine ⟨x :: items, fun lim result => ⟨⟨[], [], some x, none, items.reverse ++ x :: result⟩, rfl, by simp⟩, hn.tail.cons hx,
          fun c h => h, fun c h _ => h⟩
      | cons o others =>
        exact ih items others x o (hn.tail.cons hx) hno.tail (by simp at hfuel ⊢; omega)
    -- what `next_current` leads to, from any `current`
    have hcur : ∀ x : Item, x.Normal → ∃ out, (∀ lim result, ∃ d',
        (match VSet.Diff.nextCurrent ⟨items, others, some x, some oth, result⟩ with
          | (d, true) => Diff.loop lim fuel d
          | (d, false) => .ok d) = .ok d' ∧ d'.result = out.reverse ++ result) ∧ AllNormal out ∧
          DiffBetween out (x :: items) (oth :: others) := by
      intro x hx
      cases items with
      | nil =>
        exact ⟨[x], fun lim result => ⟨⟨[], others, some x, some oth, x :: result⟩, rfl, by simp⟩, allNormal_single hx,
          fun c h => h, fun c h _ => h⟩
      | cons i items =>
        obtain ⟨out, o1, o2, o3, o4⟩ := ih items others i oth hn.tail hno (by simp at hfuel ⊢; omega)
        refine ⟨x :: out, fun lim result => ?_, o2.cons hx, ?_, ?_⟩
        · obtain ⟨d', g1, g2⟩ := o1 lim (x :: result)
          exact ⟨d', g1, by rw [g2]; simp⟩
        · intro c h
          rcases (cov_cons _ _ _).1 h with h | h
          · exact (cov_cons _ _ _).2 (.inl h)
          · exact (cov_cons _ _ _).2 (.inr (o3 c h))
        · intro c h h'
          rcases (cov_cons _ _ _).1 h with h | h
          · exact (cov_cons _ _ _).2 (.inl h)
          · exact (cov_cons _ _ _).2 (.inr (o4 c h h'))
    by_cases h1 : oth.isStrictlyLower cur = true
    · obtain ⟨out, o1, o2, o3, o4⟩ := hother cur hn.head
      refine ⟨out, fun lim result => ?_, o2, o3, fun c h h' => o4 c h (rest_le h')⟩
      obtain ⟨d', g1, g2⟩ := o1 lim result
      refine ⟨d', ?_, g2⟩
      simp only [Diff.loop, Diff.step, h1, if_true, bind, Except.bind]
      exact g1
    · by_cases h2 : oth.isStrictlyHigher cur = true
      · obtain ⟨out, o1, o2, o3⟩ := hcur cur hn.head
        refine ⟨out, fun lim result => ?_, o2, o3⟩
        obtain ⟨d', g1, g2⟩ := o1 lim result
        refine ⟨d', ?_, g2⟩
        simp only [Diff.loop, Diff.step, h1, h2, if_true, if_false, bind, Except.bind]
        exact g1
      · obtain ⟨l, d1, d2, d3, d4⟩ := differenceItem_cov hn.head hno.head
        have hd : ∀ {c : Cut}, Cov (cur :: items) c → ¬ Cov (oth :: others) c → Cov (l ++ items) c := by
          intro c h h'
          rw [cov_cons, not_or] at h'
          rw [cov_append]
          rcases (cov_cons _ _ _).1 h with h | h
          · exact .inl ((d4 c).2 ⟨h, h'.1⟩)
          · exact .inr h
        have hd' : ∀ {c : Cut}, Cov (l ++ items) c → Cov (cur :: items) c := by
          intro c h
          rw [cov_append] at h
          rcases h with h | h
          · exact (cov_cons _ _ _).2 (.inl ((d4 c).1 h).1)
          · exact (cov_cons _ _ _).2 (.inr h)
        match l, d1, d2, d3, @hd, @hd' with
        | [], d1, _, _, hd, hd' =>
          have hstep : ∀ lim result, Diff.loop lim (fuel + 1) ⟨items, others, some cur, some oth, result⟩ =
              match VSet.Diff.nextCurrent ⟨items, others, some cur, some oth, result⟩ false with
              | (d, true) => Diff.loop lim fuel d
              | (d, false) => .ok d := by
            intro lim result
            simp only [Diff.loop, Diff.step, h1, h2, if_false, d1, ofItems, bind, Except.bind]
            rfl
          cases items with
          | nil =>
            refine ⟨[], fun lim result => ⟨⟨[], others, some cur, some oth, result⟩, by rw [hstep]; rfl, by simp⟩, allNormal_nil,
              fun c h => hd' h, fun c h h' => hd h h'⟩
          | cons i items =>
            obtain ⟨out, o1, o2, o3, o4⟩ := ih items others i oth hn.tail hno (by simp at hfuel ⊢; omega)
            refine ⟨out, fun lim result => ?_, o2, fun c h => hd' (o3 c h), fun c h h' => o4 c (hd h h') h'⟩
            obtain ⟨d', g1, g2⟩ := o1 lim result
            exact ⟨d', by rw [hstep]; exact g1, g2⟩
        | [x], d1, _, d3, hd, hd' =>
          by_cases h3 : x.isHigher oth = true
          · obtain ⟨out, o1, o2, o3, o4⟩ := hother x d3.head
            refine ⟨out, fun lim result => ?_, o2, fun c h => hd' (o3 c h), fun c h h' => o4 c (hd h h') (rest_le h')⟩
            obtain ⟨d', g1, g2⟩ := o1 lim result
            refine ⟨d', ?_, g2⟩
            simp only [Diff.loop, Diff.step, h1, h2, if_false, d1, ofItems, bind, Except.bind, h3, if_true]
            exact g1
          · obtain ⟨out, o1, o2, o3, o4⟩ := hcur x d3.head
            refine ⟨out, fun lim result => ?_, o2, fun c h => hd' (o3 c h), fun c h h' => o4 c (hd h h') h'⟩
            obtain ⟨d', g1, g2⟩ := o1 lim result
            refine ⟨d', ?_, g2⟩
            simp only [Diff.loop, Diff.step, h1, h2, if_false, d1, ofItems, bind, Except.bind, h3, if_false]
            exact g1
        | [x, y], d1, _, d3, hd, hd' =>
          obtain ⟨out, o1, o2, o3, o4⟩ := hother y d3.tail.head
          refine ⟨x :: out, fun lim result => ?_, o2.cons d3.head, ?_, ?_⟩
          · obtain ⟨d', g1, g2⟩ := o1 lim (x :: result)
            refine ⟨d', ?_, by rw [g2]; simp⟩
            simp only [Diff.loop, Diff.step, h1, h2, if_false, d1, ofItems, bind, Except.bind]
            exact g1
          · intro c h
            rcases (cov_cons _ _ _).1 h with h | h
            · exact hd' ((cov_cons _ _ _).2 (.inl h))
            · exact hd' ((cov_cons _ _ _).2 (.inr (o3 c h)))
          · intro c h h'
            rcases (cov_cons _ _ _).1 (hd h h') with h5 | h5
            · exact (cov_cons _ _ _).2 (.inl h5)
            · exact (cov_cons _ _ _).2 (.inr (o4 c h5 (rest_le h')))
        | _ :: _ :: _ :: _, _, d2, _, _, _ => simp at d2

theorem diffCompute_loose {items others : List Item} (hn : AllNormal items) (hno : AllNormal others) (he : others ≠ []) :
    ∃ out, (∀ lim, VSet.Diff.compute lim items others = .ok out) ∧ AllNormal out ∧ DiffBetween out items others := by
  obtain ⟨o, others, rfl⟩ := List.exists_cons_of_ne_nil he
  cases items with
  | nil => exact ⟨[], fun lim => rfl, allNormal_nil, fun c h => h, fun c h _ => h⟩
  | cons i items =>
    obtain ⟨out, o1, o2, o3⟩ := diffLoop_loose ((i :: items).length + (o :: others).length + 1) items others i o hn hno
      (by simp; omega)
    refine ⟨out, fun lim => ?_, o2, o3⟩
    obtain ⟨d', g1, g2⟩ := o1 lim []
    simp only [VSet.Diff.compute, List.tail_cons, List.head?_cons]
    rw [g1]
    simp [bind, Except.bind, g2]

/-! ### `intersection_iterator`, `intersects`, `includes` -/

theorem intersectionLoop_loose (n : Nat) : ∀ xs ys : List Item, xs.length + ys.length ≤ n → AllNormal xs → AllNormal ys →
    ∃ out, VSet.intersectionLoop xs ys = .ok out ∧ AllNormal out ∧ ∀ c, Cov out c → Cov xs c ∧ Cov ys c := by
  induction n with
  | zero =>
    intro xs ys h _ _
    obtain rfl : xs = [] := List.eq_nil_of_length_eq_zero (by omega)
    exact ⟨[], by simp [VSet.intersectionLoop], allNormal_nil, fun c h => ((cov_nil c).1 h).elim⟩
  | succ n ih =>
    intro xs ys h hx hy
    match xs, ys, h, hx, hy with
    | [], ys, _, _, _ => exact ⟨[], by simp [VSet.intersectionLoop], allNormal_nil, fun c h => ((cov_nil c).1 h).elim⟩
    | _ :: _, [], _, _, _ => exact ⟨[], by simp [VSet.intersectionLoop], allNormal_nil, fun c h => ((cov_nil c).1 h).elim⟩
    | x :: xs, y :: ys, h, hx, hy =>
      have hrest : ∃ out, (if y.isHigher x then VSet.intersectionLoop xs (y :: ys) else VSet.intersectionLoop (x :: xs) ys) = .ok out ∧
          AllNormal out ∧ ∀ c, Cov out c → Cov (x :: xs) c ∧ Cov (y :: ys) c := by
        split
        · obtain ⟨out, o1, o2, o3⟩ := ih xs (y :: ys) (by simp at h ⊢; omega) hx.tail hy
          exact ⟨out, o1, o2, fun c h => ⟨(cov_cons _ _ _).2 (.inr (o3 c h).1), (o3 c h).2⟩⟩
        · obtain ⟨out, o1, o2, o3⟩ := ih (x :: xs) ys (by simp at h ⊢; omega) hx hy.tail
          exact ⟨out, o1, o2, fun c h => ⟨(o3 c h).1, (cov_cons _ _ _).2 (.inr (o3 c h).2)⟩⟩
      obtain ⟨out, o1, o2, o3⟩ := hrest
      rw [VSet.intersectionLoop]
      rcases intersectionItem_spec hx.head hy.head with ⟨h1, h2, i, i1, i2, i3, i4⟩ | ⟨-, i1⟩
      · refine ⟨i :: out, ?_, o2.cons i2, ?_⟩
        · rw [i1]
          split at o1 <;> simp_all only [bind, Except.bind, if_true, if_false, Bool.false_eq_true]
        · intro c h
          rcases (cov_cons _ _ _).1 h with h | h
          · rw [i3, i4] at h
            have := le_max_left x.lo y.lo
            have := le_max_right x.lo y.lo
            have := min_le_left x.hi y.hi
            have := min_le_right x.hi y.hi
            obtain ⟨h3, h4⟩ := h
            exact ⟨(cov_cons _ _ _).2 (.inl ⟨by order, by order⟩), (cov_cons _ _ _).2 (.inl ⟨by order, by order⟩)⟩
          · exact o3 c h
      · refine ⟨out, ?_, o2, o3⟩
        rw [i1]
        split at o1 <;> simp_all only [bind, Except.bind, if_true, if_false, Bool.false_eq_true]

theorem intersectsLoop_loose (n : Nat) : ∀ xs ys : List Item, xs.length + ys.length ≤ n → AllNormal xs → AllNormal ys →
    VSet.intersectsLoop xs ys = true → ∃ x ∈ xs, ∃ y ∈ ys, x.lo < y.hi ∧ y.lo < x.hi := by
  induction n with
  | zero =>
    intro xs ys h _ _ h'
    obtain rfl : xs = [] := List.eq_nil_of_length_eq_zero (by omega)
    simp [VSet.intersectsLoop] at h'
  | succ n ih =>
    intro xs ys h hx hy h'
    match xs, ys, h, hx, hy, h' with
    | [], ys, _, _, _, h' => simp [VSet.intersectsLoop] at h'
    | _ :: _, [], _, _, _, h' => simp [VSet.intersectsLoop] at h'
    | x :: xs, y :: ys, h, hx, hy, h' =>
      rw [VSet.intersectsLoop] at h'
      split at h'
      · exact ⟨x, by simp, y, by simp, (intersectsItem_iff hx.head hy.head).1 ‹_›⟩
      · split at h'
        · obtain ⟨a, ha, b, hb, hab⟩ := ih xs (y :: ys) (by simp at h ⊢; omega) hx.tail hy h'
          exact ⟨a, List.mem_cons_of_mem _ ha, b, hb, hab⟩
        · obtain ⟨a, ha, b, hb, hab⟩ := ih (x :: xs) ys (by simp at h ⊢; omega) hx hy.tail h'
          exact ⟨a, ha, b, List.mem_cons_of_mem _ hb, hab⟩

theorem includesLoop_loose (n : Nat) : ∀ xs ys : List Item, xs.length + ys.length ≤ n → AllNormal xs → AllNormal ys →
    VSet.includesLoop xs ys = true → ∀ y ∈ ys, ∃ x ∈ xs, x.lo ≤ y.lo ∧ y.hi ≤ x.hi := by
  induction n with
  | zero =>
    intro xs ys h _ _ _
    obtain rfl : ys = [] := List.eq_nil_of_length_eq_zero (by omega)
    simp
  | succ n ih =>
    intro xs ys h hx hy h'
    match xs, ys, h, hx, hy, h' with
    | _, [], _, _, _, _ => simp
    | [], _ :: _, _, _, _, h' => simp [VSet.includesLoop] at h'
    | x :: xs, y :: ys, h, hx, hy, h' =>
      rw [VSet.includesLoop] at h'
      split at h'
      · have h1 := (includesItem_iff hx.head hy.head).1 ‹_›
        have h2 := ih (x :: xs) ys (by simp at h ⊢; omega) hx hy.tail h'
        intro b hb
        rcases List.mem_cons.1 hb with rfl | hb
        · exact ⟨x, by simp, h1⟩
        · exact h2 b hb
      · intro b hb
        obtain ⟨a, ha, hab⟩ := ih xs (y :: ys) (by simp at h ⊢; omega) hx.tail hy h' b hb
        exact ⟨a, List.mem_cons_of_mem _ ha, hab⟩

/-! ### `merge` -/

theorem unionOf_items {lim : Nat} {l : List Item} {s : VSet} (hn : AllNormal l) (h : VSet.unionOf lim (l.map .item) = .ok s) :
    s.Normal ∧ ∀ c, Cov s.extract c ↔ Cov l c := by
  have e : (l.map VSet.item).flatMap VSet.extract = l := by simp [List.flatMap_map, VSet.extract]
  obtain ⟨h1, h2⟩ := mergeItems_spec hn
  rw [VSet.unionOf, e] at h
  by_cases hb : Bad l
  · rw [h2 hb] at h; cases h
  · obtain ⟨t, t1, t2, t3⟩ := h1 hb
    have h' := mergeItems_mono (unionItem_mono lim) h
    rw [t1] at h'
    cases h'
    exact ⟨t2, t3⟩

theorem unionOf_loose {lim : Nat} {l : List VSet} {s : VSet} (hn : AllNormal (l.flatMap VSet.extract))
    (h : VSet.unionOf lim l = .ok s) : s.Normal ∧ ∀ c, Cov s.extract c ↔ Cov (l.flatMap VSet.extract) c := by
  refine unionOf_items hn (lim := lim) ?_
  rw [← h, VSet.unionOf, VSet.unionOf]
  simp [List.flatMap_map, VSet.extract]

end Verif
