import Verif.Proofs.SetOps
/-!
# The loops of intersection, difference, inclusion and overlap
-/
set_option linter.unusedSimpArgs false

namespace Verif
open scoped Verif

theorem Gaps.tail {a : Item} {l : List Item} (h : Gaps (a :: l)) : Gaps l := (List.pairwise_cons.1 h).2
theorem Gaps.head {a : Item} {l : List Item} (h : Gaps (a :: l)) : ∀ x ∈ l, a.hi < x.lo := (List.pairwise_cons.1 h).1
theorem Gaps.cons {a : Item} {l : List Item} (h : Gaps l) (h' : ∀ x ∈ l, a.hi < x.lo) : Gaps (a :: l) := List.pairwise_cons.2 ⟨h', h⟩
theorem AllNormal.tail {a : Item} {l : List Item} (h : AllNormal (a :: l)) : AllNormal l := fun i hi => h i (List.mem_cons_of_mem _ hi)
theorem AllNormal.head {a : Item} {l : List Item} (h : AllNormal (a :: l)) : a.Normal := h a (by simp)
theorem AllNormal.cons {a : Item} {l : List Item} (h : AllNormal l) (h' : a.Normal) : AllNormal (a :: l) := by
  intro i hi
  rcases List.mem_cons.1 hi with rfl | hi
  · exact h'
  · exact h i hi
theorem gaps_nil : Gaps [] := List.Pairwise.nil
theorem gaps_single (a : Item) : Gaps [a] := List.pairwise_singleton _ _
theorem allNormal_nil : AllNormal [] := by intro i hi; cases hi
theorem allNormal_single {a : Item} (h : a.Normal) : AllNormal [a] := allNormal_nil.cons h

/-- Everything in a list lies above `b`. -/
def LowBound (b : Cut) (l : List Item) : Prop := ∀ x ∈ l, b ≤ x.lo

theorem Cov.ge {l : List Item} {b c : Cut} (h : Cov l c) (hb : LowBound b l) : b ≤ c := by
  obtain ⟨i, hi, h1, h2⟩ := h
  exact (hb i hi).trans h1

theorem lowBound_head {a : Item} {l : List Item} (hn : AllNormal (a :: l)) (h : Gaps (a :: l)) : LowBound a.lo (a :: l) := by
  have := hn.head.lo_lt_hi
  intro x hx
  rcases List.mem_cons.1 hx with rfl | hx
  · exact le_rfl
  · have := h.head x hx; order

theorem LowBound.mono {b b' : Cut} {l : List Item} (h : LowBound b l) (hb : b' ≤ b) : LowBound b' l :=
  fun x hx => hb.trans (h x hx)

theorem lowBound_tail {a : Item} {l : List Item} (h : Gaps (a :: l)) : LowBound a.hi l := fun x hx => (h.head x hx).le

/-! ### `difference_iterator` -/

theorem differenceIterator_high (lim : Nat) {cur : Item} (hc : cur.Normal) {items : List Item} (hn : AllNormal items)
    (hg : Gaps items) (h : LowBound cur.hi items) : cur.differenceIterator lim items = .ok [cur] := by
  have hlt := hc.lo_lt_hi
  match items with
  | [] => rfl
  | it :: rest =>
    have h1 : cur.hi ≤ it.lo := h it (by simp)
    have h2 := hn.head.lo_lt_hi
    have e1 : it.isStrictlyLower cur = false := by
      rw [Bool.eq_false_iff, ne_eq, isStrictlyLower_iff hn.head.endsOk hc.endsOk]; order
    have e2 : it.isStrictlyHigher cur = true := by
      rw [isStrictlyHigher_iff hn.head.endsOk hc.endsOk]; exact h1
    simp [Item.differenceIterator, e1, e2]

/-- An item that covers the whole range makes the iterator yield the range. -/
theorem differenceIterator_covered (lim : Nat) (items : List Item) : ∀ cur : Item, cur.Normal → AllNormal items → Gaps items →
    (∃ j ∈ items, j.lo ≤ cur.lo ∧ cur.hi ≤ j.hi) → cur.differenceIterator lim items = .ok [cur] := by
  induction items with
  | nil => rintro cur _ _ _ ⟨j, hj, -⟩; cases hj
  | cons it rest ih =>
    rintro cur hc hn hg ⟨j, hj, hj1, hj2⟩
    have lc := hc.lo_lt_hi
    have li := hn.head.lo_lt_hi
    rcases List.mem_cons.1 hj with rfl | hj
    · have e1 : j.isStrictlyLower cur = false := by
        rw [Bool.eq_false_iff, ne_eq, isStrictlyLower_iff hn.head.endsOk hc.endsOk]; order
      have e2 : j.isStrictlyHigher cur = false := by
        rw [Bool.eq_false_iff, ne_eq, isStrictlyHigher_iff hn.head.endsOk hc.endsOk]; order
      obtain ⟨l, r, hp, hd⟩ := differenceItem_overlap hc hn.head (by order) (by order)
      have hl : l = none := hp.left_iff.2 hj1
      have hr : r = none := hp.right_iff.2 hj2
      subst hl hr
      simp only [Item.differenceIterator, e1, e2, Bool.false_eq_true, if_false, hd lim]
      exact differenceIterator_high lim hc hn.tail hg.tail ((lowBound_tail hg).mono hj2)
    · have hgap := hg.head j hj
      have e1 : it.isStrictlyLower cur = true := by
        rw [isStrictlyLower_iff hn.head.endsOk hc.endsOk]
        order
      simp only [Item.differenceIterator, e1, if_true]
      exact ih cur hc hn.tail hg.tail ⟨j, hj, hj1, hj2⟩

/-- Otherwise it yields exactly the difference. -/
theorem differenceIterator_spec (items : List Item) : ∀ cur : Item, cur.Normal → AllNormal items → Gaps items →
    (∀ j ∈ items, ¬ (j.lo ≤ cur.lo ∧ cur.hi ≤ j.hi)) →
    ∃ out, (∀ lim, cur.differenceIterator lim items = .ok out) ∧ AllNormal out ∧ Gaps out ∧ LowBound cur.lo out ∧
      ∀ c, Cov out c ↔ (cur.lo ≤ c ∧ c < cur.hi) ∧ ¬ Cov items c := by
  induction items with
  | nil =>
    intro cur hc _ _ _
    refine ⟨[cur], fun lim => rfl, allNormal_single hc, gaps_single _, ?_, ?_⟩
    · intro x hx; simp at hx; subst hx; exact le_rfl
    · intro c; simp
  | cons it rest ih =>
    intro cur hc hn hg hno
    have lc := hc.lo_lt_hi
    have li := hn.head.lo_lt_hi
    have hrest : ∀ c, Cov rest c → it.hi < c := by
      rintro c ⟨i, hi, h1, h2⟩
      have := hg.head i hi
      order
    by_cases h1 : it.hi ≤ cur.lo
    · have e1 : it.isStrictlyLower cur = true := (isStrictlyLower_iff hn.head.endsOk hc.endsOk).2 h1
      obtain ⟨out, o1, o2, o3, o4, o5⟩ := ih cur hc hn.tail hg.tail (fun j hj => hno j (List.mem_cons_of_mem _ hj))
      refine ⟨out, ?_, o2, o3, o4, ?_⟩
      · intro lim; simp only [Item.differenceIterator, e1, if_true]; exact o1 lim
      · intro c
        rw [o5 c, cov_cons]
        constructor
        · rintro ⟨⟨h2, h3⟩, h4⟩
          refine ⟨⟨h2, h3⟩, ?_⟩
          rintro (⟨h5, h6⟩ | h)
          · order
          · exact h4 h
        · rintro ⟨h2, h3⟩
          exact ⟨h2, fun h => h3 (.inr h)⟩
    · have e1 : it.isStrictlyLower cur = false := by
        rw [Bool.eq_false_iff, ne_eq, isStrictlyLower_iff hn.head.endsOk hc.endsOk]; exact h1
      by_cases h2 : cur.hi ≤ it.lo
      · refine ⟨[cur], fun lim => ?_, allNormal_single hc, gaps_single _, ?_, ?_⟩
        · have e2 : it.isStrictlyHigher cur = true := by
            rw [isStrictlyHigher_iff hn.head.endsOk hc.endsOk]; exact h2
          simp [Item.differenceIterator, e1, e2]
        · intro x hx; simp at hx; subst hx; exact le_rfl
        · intro c
          rw [cov_cons, cov_nil, or_false, cov_cons]
          constructor
          · rintro ⟨h3, h4⟩
            refine ⟨⟨h3, h4⟩, ?_⟩
            rintro (⟨h5, h6⟩ | h)
            · order
            · have := hrest c h; order
          · exact fun h => h.1
      · have e2 : it.isStrictlyHigher cur = false := by
          rw [Bool.eq_false_iff, ne_eq, isStrictlyHigher_iff hn.head.endsOk hc.endsOk]; exact h2
        have h1 := not_le.1 h1
        have h2 := not_le.1 h2
        obtain ⟨l, r, hp, hd⟩ := differenceItem_overlap hc hn.head h1 h2
        cases r with
        | none =>
          have hhi := hp.right_iff.1 rfl
          cases l with
          | none => exact absurd ⟨hp.left_iff.1 rfl, hhi⟩ (hno it (by simp))
          | some x =>
            obtain ⟨nx, xlo, xhi⟩ := hp.left x rfl
            refine ⟨[x], fun lim => ?_, allNormal_single nx, gaps_single _, ?_, ?_⟩
            · simp only [Item.differenceIterator, e1, e2, Bool.false_eq_true, if_false, hd lim]
              exact differenceIterator_high lim nx hn.tail hg.tail ((lowBound_tail hg).mono (by order))
            · intro y hy; simp at hy; subst hy; exact xlo.ge
            · intro c
              rw [cov_cons, cov_nil, or_false, cov_cons, xlo, xhi]
              constructor
              · rintro ⟨h3, h4⟩
                refine ⟨⟨h3, by order⟩, ?_⟩
                rintro (⟨h5, h6⟩ | h)
                · order
                · have := hrest c h; order
              · rintro ⟨⟨h3, h4⟩, h5⟩
                refine ⟨h3, ?_⟩
                by_contra h6
                exact h5 (.inl ⟨not_lt.1 h6, by order⟩)
        | some y =>
          obtain ⟨ny, ylo, yhi⟩ := hp.right y rfl
          have hy : ∀ j ∈ rest, ¬ (j.lo ≤ y.lo ∧ y.hi ≤ j.hi) := by
            rintro j hj ⟨h3, h4⟩
            have := hg.head j hj
            order
          obtain ⟨out, o1, o2, o3, o4, o5⟩ := ih y ny hn.tail hg.tail hy
          have hlt : it.hi < cur.hi := by
            by_contra h
            exact absurd (hp.right_iff.2 (not_lt.1 h)) (by simp)
          cases l with
          | none =>
            have hlo := hp.left_iff.1 rfl
            refine ⟨out, fun lim => ?_, o2, o3, o4.mono (by order), ?_⟩
            · simp only [Item.differenceIterator, e1, e2, Bool.false_eq_true, if_false, hd lim]
              exact o1 lim
            · intro c
              rw [o5 c, cov_cons, ylo, yhi]
              constructor
              · rintro ⟨⟨h3, h4⟩, h5⟩
                refine ⟨⟨by order, h4⟩, ?_⟩
                rintro (⟨h6, h7⟩ | h)
                · order
                · exact h5 h
              · rintro ⟨⟨h3, h4⟩, h5⟩
                refine ⟨⟨?_, h4⟩, fun h => h5 (.inr h)⟩
                by_contra h6
                exact h5 (.inl ⟨by order, by order⟩)
          | some x =>
            obtain ⟨nx, xlo, xhi⟩ := hp.left x rfl
            refine ⟨x :: out, fun lim => ?_, o2.cons nx, o3.cons ?_, ?_, ?_⟩
            · simp only [Item.differenceIterator, e1, e2, Bool.false_eq_true, if_false, hd lim]
              show (do let rest ← y.differenceIterator lim rest; Except.ok (x :: rest)) = _
              rw [o1 lim]; rfl
            · intro z hz
              have := o4 z hz
              order
            · intro z hz
              rcases List.mem_cons.1 hz with rfl | hz
              · exact xlo.ge
              · have := o4 z hz; order
            · intro c
              rw [cov_cons, o5 c, cov_cons, ylo, yhi, xlo, xhi]
              constructor
              · rintro (⟨h3, h4⟩ | ⟨⟨h3, h4⟩, h5⟩)
                · refine ⟨⟨h3, by order⟩, ?_⟩
                  rintro (⟨h6, h7⟩ | h)
                  · order
                  · have := hrest c h; order
                · refine ⟨⟨by order, h4⟩, ?_⟩
                  rintro (⟨h6, h7⟩ | h)
                  · order
                  · exact h5 h
              · rintro ⟨⟨h3, h4⟩, h5⟩
                by_cases h6 : c < it.lo
                · exact .inl ⟨h3, h6⟩
                · right
                  refine ⟨⟨?_, h4⟩, fun h => h5 (.inr h)⟩
                  by_contra h7
                  exact h5 (.inl ⟨not_lt.1 h6, not_le.1 h7⟩)

/-! ### `ItemsDifference` -/

open VSet (Diff) in
theorem diffLoop_spec (fuel : Nat) : ∀ (items others : List Item) (cur oth : Item),
    AllNormal (cur :: items) → Gaps (cur :: items) → AllNormal (oth :: others) → Gaps (oth :: others) →
    items.length + others.length < fuel →
    ∃ out, (∀ lim result, ∃ d', Diff.loop lim fuel ⟨items, others, some cur, some oth, result⟩ = .ok d' ∧
        d'.result = out.reverse ++ result) ∧ AllNormal out ∧ Gaps out ∧
      LowBound cur.lo out ∧ ∀ c, Cov out c ↔ Cov (cur :: items) c ∧ ¬ Cov (oth :: others) c := by
  induction fuel with
  | zero => intro items others cur oth _ _ _ _ h; omega
  | succ fuel ih =>
    intro items others cur oth hn hg hno hgo hfuel
    have lc := hn.head.lo_lt_hi
    have lo := hno.head.lo_lt_hi
    have ec := hn.head.endsOk
    have eo := hno.head.endsOk
    have hitems : ∀ c, Cov items c → cur.hi < c := by
      rintro c ⟨i, hi, h1, h2⟩
      have := hg.head i hi; order
    have hothers : ∀ c, Cov others c → oth.hi < c := by
      rintro c ⟨i, hi, h1, h2⟩
      have := hgo.head i hi; order
    by_cases h1 : oth.hi ≤ cur.lo
    · -- the other item lies below
      have e1 : oth.isStrictlyLower cur = true := (isStrictlyLower_iff eo ec).2 h1
      have hcov : ∀ c, Cov (cur :: items) c → oth.hi ≤ c := by
        intro c hc
        exact h1.trans (hc.ge (lowBound_head hn hg))
      cases others with
      | nil =>
        refine ⟨cur :: items, fun lim result => ⟨⟨[], [], some cur, none, items.reverse ++ cur :: result⟩, ?_, ?_⟩, hn, hg, lowBound_head hn hg, ?_⟩
        · simp [Diff.loop, Diff.step, e1, Diff.nextOtherCurrent, bind, Except.bind]
        · simp
        · intro c
          constructor
          · intro h
            refine ⟨h, ?_⟩
            rw [cov_cons]
            rintro (⟨h2, h3⟩ | h2)
            · have := hcov c h; order
            · exact (cov_nil c).1 h2
          · exact fun h => h.1
      | cons o others =>
        obtain ⟨out, o1, o2, o3, o4, o5⟩ := ih items others cur o hn hg hno.tail
          hgo.tail (by simp at hfuel ⊢; omega)
        refine ⟨out, fun lim result => ?_, o2, o3, o4, ?_⟩
        · obtain ⟨d', g1, g2⟩ := o1 lim result
          refine ⟨d', ?_, g2⟩
          simp only [Diff.loop, Diff.step, e1, if_true, Diff.nextOtherCurrent]
          exact g1
        · intro c
          rw [o5 c]
          constructor
          · rintro ⟨h2, h3⟩
            refine ⟨h2, ?_⟩
            rw [cov_cons]
            rintro (⟨h4, h5⟩ | h4)
            · have := hcov c h2; order
            · exact h3 h4
          · rintro ⟨h2, h3⟩
            refine ⟨h2, fun h => h3 ?_⟩
            rw [cov_cons]; exact .inr h
    · have e1 : oth.isStrictlyLower cur = false := by
        rw [Bool.eq_false_iff, ne_eq, isStrictlyLower_iff eo ec]; exact h1
      have h1 := not_le.1 h1
      by_cases h2 : cur.hi ≤ oth.lo
      · -- the other item lies above
        have e2 : oth.isStrictlyHigher cur = true := (isStrictlyHigher_iff eo ec).2 h2
        have hcov : ∀ c, c < cur.hi → ¬ Cov (oth :: others) c := by
          intro c hc h
          have := h.ge (lowBound_head hno hgo)
          order
        cases items with
        | nil =>
          refine ⟨[cur], fun lim result => ⟨⟨[], others, some cur, some oth, cur :: result⟩, ?_, ?_⟩, hn, hg, lowBound_head hn hg, ?_⟩
          · simp [Diff.loop, Diff.step, e1, e2, Diff.nextCurrent, bind, Except.bind]
          · simp
          · intro c
            constructor
            · intro h
              refine ⟨h, hcov c ?_⟩
              rw [cov_cons, cov_nil, or_false] at h; exact h.2
            · exact fun h => h.1
        | cons i items =>
          obtain ⟨out, o1, o2, o3, o4, o5⟩ := ih items others i oth hn.tail hg.tail
            hno hgo (by simp at hfuel ⊢; omega)
          have hi := hg.head i (by simp)
          refine ⟨cur :: out, fun lim result => ?_, o2.cons hn.head, o3.cons ?_, ?_, ?_⟩
          · obtain ⟨d', g1, g2⟩ := o1 lim (cur :: result)
            refine ⟨d', ?_, by rw [g2]; simp⟩
            simp only [Diff.loop, Diff.step, e1, e2, Bool.false_eq_true, if_false, if_true, Diff.nextCurrent]
            exact g1
          · intro x hx; exact lt_of_lt_of_le hi (o4 x hx)
          · intro x hx
            rcases List.mem_cons.1 hx with rfl | hx
            · exact le_rfl
            · have := o4 x hx; order
          · intro c
            rw [cov_cons, o5 c, cov_cons (i := cur)]
            constructor
            · rintro (h | h)
              · exact ⟨.inl h, hcov c h.2⟩
              · exact ⟨.inr h.1, h.2⟩
            · rintro ⟨h | h, h'⟩
              · exact .inl h
              · exact .inr ⟨h, h'⟩
      · have e2 : oth.isStrictlyHigher cur = false := by
          rw [Bool.eq_false_iff, ne_eq, isStrictlyHigher_iff eo ec]; exact h2
        have h2 := not_le.1 h2
        obtain ⟨l, r, hp, hd⟩ := differenceItem_overlap hn.head hno.head h1 h2
        cases r with
        | none =>
          have hhi := hp.right_iff.1 rfl
          cases l with
          | none =>
            -- nothing left of the current item
            have hlo := hp.left_iff.1 rfl
            cases items with
            | nil =>
              refine ⟨[], fun lim result => ⟨⟨[], others, some cur, some oth, result⟩, ?_, ?_⟩, allNormal_nil, gaps_nil, ?_, ?_⟩
              · simp [Diff.loop, Diff.step, e1, e2, hd, ofItems, Diff.nextCurrent, bind, Except.bind]
              · simp
              · intro x hx; cases hx
              · intro c
                simp only [cov_nil, cov_cons, or_false, false_iff, not_and, not_not]
                rintro ⟨h3, h4⟩
                exact .inl ⟨by order, by order⟩
            | cons i items =>
              obtain ⟨out, o1, o2, o3, o4, o5⟩ := ih items others i oth hn.tail hg.tail
                hno hgo (by simp at hfuel ⊢; omega)
              have hi := hg.head i (by simp)
              refine ⟨out, fun lim result => ?_, o2, o3, o4.mono (by order), ?_⟩
              · obtain ⟨d', g1, g2⟩ := o1 lim result
                refine ⟨d', ?_, g2⟩
                simp only [Diff.loop, Diff.step, e1, e2, hd, Bool.false_eq_true, if_false, if_true, Diff.nextCurrent]
                exact g1
              · intro c
                rw [o5 c, cov_cons (i := cur)]
                constructor
                · rintro ⟨h3, h4⟩
                  exact ⟨.inr h3, h4⟩
                · rintro ⟨h3 | h3, h4⟩
                  · exact absurd (by rw [cov_cons]; exact .inl ⟨by order, by order⟩) h4
                  · exact ⟨h3, h4⟩
          | some x =>
            -- the left piece is left
            obtain ⟨nx, xlo, xhi⟩ := hp.left x rfl
            have e3 : x.isHigher oth = false := by
              rw [Bool.eq_false_iff, ne_eq, isHigher_iff nx.endsOk eo]; order
            have hxc : ∀ c, (x.lo ≤ c ∧ c < x.hi) ↔ (cur.lo ≤ c ∧ c < cur.hi) ∧ ¬ Cov (oth :: others) c := by
              intro c
              rw [xlo, xhi, cov_cons]
              constructor
              · rintro ⟨h3, h4⟩
                refine ⟨⟨h3, by order⟩, ?_⟩
                rintro (⟨h5, h6⟩ | h)
                · order
                · have := hothers c h; order
              · rintro ⟨⟨h3, h4⟩, h5⟩
                refine ⟨h3, ?_⟩
                by_contra h6
                exact h5 (.inl ⟨not_lt.1 h6, by order⟩)
            cases items with
            | nil =>
              refine ⟨[x], fun lim result => ⟨⟨[], others, some x, some oth, x :: result⟩, ?_, ?_⟩, allNormal_single nx, gaps_single _,
                ?_, ?_⟩
              · simp [Diff.loop, Diff.step, e1, e2, hd, ofItems, e3, Diff.nextCurrent, bind, Except.bind]
              · simp
              · intro y hy; simp at hy; subst hy; exact xlo.ge
              · intro c
                rw [cov_cons (i := x), cov_nil, or_false, cov_cons (i := cur), cov_nil, or_false]
                exact hxc c
            | cons i items =>
              obtain ⟨out, o1, o2, o3, o4, o5⟩ := ih items others i oth hn.tail hg.tail
                hno hgo (by simp at hfuel ⊢; omega)
              have hi := hg.head i (by simp)
              refine ⟨x :: out, fun lim result => ?_, o2.cons nx, o3.cons ?_, ?_, ?_⟩
              · obtain ⟨d', g1, g2⟩ := o1 lim (x :: result)
                refine ⟨d', ?_, by rw [g2]; simp⟩
                simp only [Diff.loop, Diff.step, e1, e2, hd, Option.toList, List.append_nil, ofItems, e3,
                  Bool.false_eq_true, if_false, if_true, Diff.nextCurrent]
                simp only [bind, Except.bind, e3, Bool.false_eq_true, if_false]
                exact g1
              · intro y hy; have := o4 y hy; order
              · intro y hy
                rcases List.mem_cons.1 hy with rfl | hy
                · exact xlo.ge
                · have := o4 y hy; order
              · intro c
                rw [cov_cons (i := x), o5 c, cov_cons (i := cur), hxc c]
                constructor
                · rintro (h3 | h3)
                  · exact ⟨.inl h3.1, h3.2⟩
                  · exact ⟨.inr h3.1, h3.2⟩
                · rintro ⟨h3 | h3, h4⟩
                  · exact .inl ⟨h3, h4⟩
                  · exact .inr ⟨h3, h4⟩
        | some y =>
          obtain ⟨ny, ylo, yhi⟩ := hp.right y rfl
          have hlt : oth.hi < cur.hi := by
            by_contra h
            exact absurd (hp.right_iff.2 (not_lt.1 h)) (by simp)
          have e3 : y.isHigher oth = true := by
            rw [isHigher_iff ny.endsOk eo]; order
          have hny : AllNormal (y :: items) := hn.tail.cons ny
          have hgy : Gaps (y :: items) := hg.tail.cons (by intro z hz; rw [yhi]; exact hg.head z hz)
          -- the rest, after moving to the next other item
          have hrest : ∃ out, (∀ (lim : Nat) (res : List Item), ∃ d', (match (Diff.nextOtherCurrent ⟨items, others, some y, some oth, res⟩) with
                | (d, true) => Diff.loop lim fuel d
                | (d, false) => .ok d) = .ok d' ∧ d'.result = out.reverse ++ res) ∧ AllNormal out ∧ Gaps out ∧
              LowBound y.lo out ∧ ∀ c, Cov out c ↔ Cov (y :: items) c ∧ ¬ Cov others c := by
            cases others with
            | nil =>
              refine ⟨y :: items, fun lim res => ⟨⟨[], [], some y, none, items.reverse ++ y :: res⟩, ?_, ?_⟩, hny, hgy,
                lowBound_head hny hgy, ?_⟩
              · simp [Diff.nextOtherCurrent]
              · simp
              · intro c; simp
            | cons o others =>
              obtain ⟨out, o1, o2, o3, o4, o5⟩ := ih items others y o hny hgy hno.tail hgo.tail (by simp at hfuel ⊢; omega)
              exact ⟨out, fun lim res => o1 lim res, o2, o3, o4, o5⟩
          obtain ⟨out, o1, o2, o3, o4, o5⟩ := hrest
          have hsplit : ∀ c, Cov out c ↔ (((cur.lo ≤ c ∧ c < cur.hi) ∧ oth.hi ≤ c) ∨ Cov items c) ∧ ¬ Cov others c := by
            intro c
            rw [o5 c, cov_cons, ylo, yhi]
            constructor
            · rintro ⟨h3 | h3, h4⟩
              · exact ⟨.inl ⟨⟨by order, h3.2⟩, h3.1⟩, h4⟩
              · exact ⟨.inr h3, h4⟩
            · rintro ⟨h3 | h3, h4⟩
              · exact ⟨.inl ⟨h3.2, h3.1.2⟩, h4⟩
              · exact ⟨.inr h3, h4⟩
          cases l with
          | none =>
            have hlo := hp.left_iff.1 rfl
            refine ⟨out, fun lim result => ?_, o2, o3, o4.mono (by order), ?_⟩
            · obtain ⟨d', g1, g2⟩ := o1 lim result
              refine ⟨d', ?_, g2⟩
              simp only [Diff.loop, Diff.step, e1, e2, hd, Option.toList, List.nil_append, ofItems, Bool.false_eq_true, if_false]
              simp only [bind, Except.bind, e3, if_true]
              exact g1
            · intro c
              rw [hsplit c, cov_cons, cov_cons]
              constructor
              · rintro ⟨h3 | h3, h4⟩
                · refine ⟨.inl h3.1, ?_⟩
                  rintro (⟨h5, h6⟩ | h5)
                  · have := h3.2; order
                  · exact h4 h5
                · refine ⟨.inr h3, ?_⟩
                  have := hitems c h3
                  rintro (⟨h5, h6⟩ | h5)
                  · order
                  · exact h4 h5
              · rintro ⟨h3 | h3, h4⟩
                · refine ⟨.inl ⟨h3, ?_⟩, fun h => h4 (.inr h)⟩
                  by_contra h5
                  exact h4 (.inl ⟨by order, by order⟩)
                · exact ⟨.inr h3, fun h => h4 (.inr h)⟩
          | some x =>
            obtain ⟨nx, xlo, xhi⟩ := hp.left x rfl
            refine ⟨x :: out, fun lim result => ?_, o2.cons nx, o3.cons ?_, ?_, ?_⟩
            · obtain ⟨d', g1, g2⟩ := o1 lim (x :: result)
              refine ⟨d', ?_, by rw [g2]; simp⟩
              simp only [Diff.loop, Diff.step, e1, e2, hd, Option.toList, List.cons_append, List.nil_append, ofItems,
                Bool.false_eq_true, if_false]
              exact g1
            · intro z hz; have := o4 z hz; order
            · intro z hz
              rcases List.mem_cons.1 hz with rfl | hz
              · exact xlo.ge
              · have := o4 z hz; order
            · intro c
              rw [cov_cons, hsplit c, cov_cons, cov_cons, xlo, xhi]
              constructor
              · rintro (⟨h3, h4⟩ | ⟨h3 | h3, h4⟩)
                · refine ⟨.inl ⟨h3, by order⟩, ?_⟩
                  rintro (⟨h5, h6⟩ | h)
                  · order
                  · have := hothers c h; order
                · refine ⟨.inl h3.1, ?_⟩
                  rintro (⟨h5, h6⟩ | h5)
                  · have := h3.2; order
                  · exact h4 h5
                · refine ⟨.inr h3, ?_⟩
                  have := hitems c h3
                  rintro (⟨h5, h6⟩ | h5)
                  · order
                  · exact h4 h5
              · rintro ⟨h3 | h3, h4⟩
                · by_cases h5 : c < oth.lo
                  · exact .inl ⟨h3.1, h5⟩
                  · refine .inr ⟨.inl ⟨h3, ?_⟩, fun h => h4 (.inr h)⟩
                    by_contra h6
                    exact h4 (.inl ⟨not_lt.1 h5, not_le.1 h6⟩)
                · exact .inr ⟨.inr h3, fun h => h4 (.inr h)⟩

end Verif
