import Verif.Proofs.SetLevel2
import Verif.Props.Versions
/-!
# Properties of version sets: C19-C31, C48, C49

`lim` is the recursion limit; statements hold for every limit (from 2 on where the code does return).
-/
set_option linter.unusedSimpArgs false

namespace Verif
open scoped Verif

/-- The item `[a, b)` of releases, used in examples. -/
def exRange (a b : Option (List Int)) (ia : Bool := true) (ib : Bool := false) : Item :=
  .range ⟨a.map exVersion, b.map exVersion, ia, ib⟩

/-- The version with the given release, as an item. -/
def exPoint (a : List Int) : Item := .point (exVersion a)

/-! ## C20: intersection -/

/-- C20. `a.intersection(b)` never fails and contains exactly the versions in both. -/
theorem C20_intersection_exact (a b : VSet) (ha : a.Normal) (hb : b.Normal) :
    ∃ s, (∀ lim, a.intersection lim b = .ok s) ∧ ∀ v, s.contains v = true ↔ a.Mem v ∧ b.Mem v := by
  obtain ⟨s, h1, h2, h3⟩ := intersection_spec ha hb
  refine ⟨s, h1, fun v => ?_⟩
  rw [contains_cov, h3, mem_iff_cov, mem_iff_cov]; rfl

example : (VSet.item (exRange (some [1]) (some [3]))).intersection 0 (.item (exRange (some [2]) none)) =
    .ok (.item (exRange (some [2]) (some [3]))) := by decide +kernel
example : (VSet.item (exRange (some [1]) (some [2]) true true)).intersection 0 (.item (exRange (some [2, 0]) none)) =
    .ok (.item (exPoint [2, 0])) := by decide +kernel

/-! ## C21, C22: union -/

/-- C21. Whenever `a.union(b)` returns, it contains exactly the versions in either. -/
theorem C21_union_exact (a b s : VSet) (ha : a.Normal) (hb : b.Normal) (lim : Nat) (h : a.unionWith lim b = .ok s) (v : Version) :
    s.contains v = true ↔ a.Mem v ∨ b.Mem v := by
  rw [contains_cov, (unionWith_ok ha hb h).2, mem_iff_cov, mem_iff_cov]; rfl

example : (VSet.item (exRange (some [1]) (some [2]))).unionWith 1 (.item (exRange (some [2]) (some [3]))) =
    .ok (.item (exRange (some [1]) (some [3]))) := by decide +kernel

/-- C22. `a.union(b)` returns unless the operands clash; a single range on the left with a single version on the right
always works. -/
theorem C22_union_returns (a b : VSet) (ha : a.Normal) (hb : b.Normal)
    (h : ¬ Clash (fun i => a.Has i ∨ b.Has i) ∨ ((∃ r, a = .item (.range r)) ∧ ∃ v, b = .item (.point v))) :
    ∃ s, ∀ lim, a.unionWith (lim + 2) b = .ok s := by
  obtain ⟨h1, -⟩ := unionWith_spec ha hb
  obtain ⟨s, h2, -⟩ := h1 (by
    rintro ⟨hbad, hx⟩
    rcases h with h | h
    · exact h ((clash_union_iff ha hb).2 hbad)
    · exact hx h)
  exact ⟨s, h2⟩

example : ∃ s, ∀ lim, (VSet.union [exPoint [1], exPoint [3]]).unionWith (lim + 2) (.item (exPoint [2])) = .ok s :=
  C22_union_returns _ _ (by decide +kernel) (by decide +kernel) (.inl (by
    rintro ⟨p, r, -, h, -⟩
    simp [VSet.Has, exPoint] at h))

/-- C22. If the operands clash, `a.union(b)` recurses without end: whatever the recursion limit, it is exceeded. -/
theorem C22_union_diverges (a b : VSet) (ha : a.Normal) (hb : b.Normal) (h : Clash (fun i => a.Has i ∨ b.Has i))
    (hx : ¬ ((∃ r, a = .item (.range r)) ∧ ∃ v, b = .item (.point v))) (lim : Nat) :
    a.unionWith lim b = .error .recursionError :=
  (unionWith_spec ha hb).2 ⟨(clash_union_iff ha hb).1 h, hx⟩ lim

example (lim : Nat) : (VSet.union [exRange none (some [1]) false, exRange (some [2]) none false]).unionWith lim (.item (exPoint [2])) =
    .error .recursionError :=
  C22_union_diverges _ _ (by decide +kernel) (by decide +kernel)
    ⟨exVersion [2], ⟨some (exVersion [2]), none, false, false⟩, .inr (by decide +kernel), .inl (by decide +kernel),
      ⟨_, rfl, by decide +kernel, rfl⟩, by
      rintro s (hs | hs)
      · simp only [VSet.Has, exRange, List.mem_cons, Item.range.injEq, List.not_mem_nil, or_false] at hs
        rcases hs with rfl | rfl <;> decide +kernel
      · cases hs⟩ (by rintro ⟨⟨r, h⟩, -⟩; cases h) lim

/-- C22. `== 1 || > 1` recurses without end, `> 1 || == 1` does not. -/
theorem C22_example (lim : Nat) :
    (VSet.item (exPoint [1])).unionWith lim (.item (exRange (some [1]) none false)) = .error .recursionError ∧
    (VSet.item (exRange (some [1]) none false)).unionWith (lim + 1) (.item (exPoint [1])) =
      .ok (.item (exRange (some [1]) none true)) := by
  constructor
  · refine C22_union_diverges (.item (exPoint [1])) (.item (exRange (some [1]) none false)) trivial
      ⟨fun h => rfl, fun _ => rfl, by rintro a b - h; cases h⟩ ?_ ?_ lim
    · refine ⟨exVersion [1], ⟨some (exVersion [1]), none, false, false⟩, .inl rfl, .inr rfl,
        ⟨exVersion [1], rfl, by decide +kernel, rfl⟩, ?_⟩
      rintro s (hs | hs)
      · cases hs
      · cases hs
        refine ⟨?_, by rintro m ⟨⟩⟩
        rintro ⟨h, -⟩
        have := h _ rfl
        revert this
        decide +kernel
    · rintro ⟨⟨r, hr⟩, -⟩; cases hr
  · rfl

example : (VSet.item (exPoint [1])).unionWith 1000 (.item (exRange (some [1]) none false)) = .error .recursionError := (C22_example _).1

/-! ## C23: difference -/

/-- C23. `a.difference(b)` never fails and is exact, except for a union minus the empty set, and for a range minus a
union of which one item already holds all versions of the range. -/
theorem C23_difference_exact (a b : VSet) (ha : a.Normal) (hb : b.Normal) (h1 : ∀ items, ¬ (a = .union items ∧ b = .empty))
    (h2 : ∀ r items, a = .item (.range r) → b = .union items → ∀ j ∈ items, ¬ ∀ v, (Item.range r).Mem v → j.Mem v) :
    ∃ s, (∀ lim, a.difference lim b = .ok s) ∧ ∀ v, s.contains v = true ↔ a.Mem v ∧ ¬ b.Mem v := by
  obtain ⟨s, s1, -, s3⟩ := difference_spec ha hb (by
    rintro (⟨r, items, e1, e2, j, hj, j1, j2⟩ | ⟨items, e⟩)
    · refine h2 r items e1 e2 j hj (fun v hv => ?_)
      rw [mem_iff_cut] at hv ⊢
      exact ⟨j1.trans hv.1, lt_of_lt_of_le hv.2 j2⟩
    · exact h1 items e)
  refine ⟨s, s1, fun v => ?_⟩
  rw [contains_cov, s3, mem_iff_cov, mem_iff_cov]; rfl

example : ∃ s, (∀ lim, (VSet.item (exRange (some [1]) (some [5]))).difference lim (.union [exPoint [2], exRange (some [3]) (some [4])]) = .ok s) ∧
    s.contains (exVersion [2, 5]) = true ∧ s.contains (exVersion [2]) = false ∧ s.contains (exVersion [3, 5]) = false := by
  obtain ⟨s, h, e⟩ := C23_difference_exact (.item (exRange (some [1]) (some [5]))) (.union [exPoint [2], exRange (some [3]) (some [4])])
    (by decide +kernel) (by decide +kernel) (by rintro items ⟨h, -⟩; cases h) (by
      intro r items h1 h2 j hj hv
      cases h1; cases h2
      exact absurd (hv (exVersion [2, 5]) (by decide +kernel)) (by
        simp only [List.mem_cons, List.not_mem_nil, or_false] at hj
        rcases hj with rfl | rfl <;> decide +kernel))
  refine ⟨s, h, (e _).2 (by decide +kernel), ?_, ?_⟩ <;> rw [Bool.eq_false_iff, ne_eq, e] <;> decide +kernel

/-- C23, violated. A range minus a union with an item that holds all versions of the range should be empty: the code
returns the range itself. -/
theorem C23_covered_range (r : VRange) (items : List Item) (hr : (VSet.item (.range r)).Normal) (hu : (VSet.union items).Normal)
    (wr : (Item.range r).Wf) (wu : (VSet.union items).Wf) (j : Item) (hj : j ∈ items)
    (hcov : ∀ v, v.Wf → (Item.range r).Mem v → j.Mem v) (lim : Nat) :
    (VSet.item (.range r)).difference lim (.union items) = .ok (.item (.range r)) := by
  apply difference_bad_covered hr hu
  refine ⟨j, hj, ?_⟩
  have hjn : j.Normal := hu.allNormal j hj
  have := (subset_versions (a := .item j) (b := .item (.range r)) (wu j hj) wr).2 hcov
  rw [← includes_iff_cov (a := .item j) (b := .item (.range r)) hjn hr] at this
  cases j with
  | range s => exact (includesItem_iff (a := .range s) (b := .range r) hjn hr).1 this
  | point s => exact (includesItem_iff (a := .point s) (b := .range r) hjn hr).1 this

example : (VSet.item (exRange (some [2]) (some [3]))).difference 9 (.union [exRange none (some [1]) false, exRange (some [1, 5]) none]) =
    .ok (.item (exRange (some [2]) (some [3]))) := by decide +kernel

/-- C23, violated. A union minus the empty set should be the union: the code returns the empty set. -/
theorem C23_union_minus_empty (items : List Item) (lim : Nat) : (VSet.union items).difference lim .empty = .ok .empty :=
  difference_bad_empty items lim

example : (VSet.union [exPoint [1], exPoint [2]]).difference 9 .empty = .ok .empty := C23_union_minus_empty _ _

/-- Both violations happen: `[2, 3) - ([1, 4) ∪ {5})` is `[2, 3)`, and `({1} ∪ {5}) - ∅` is `∅`. -/
theorem C23_violations :
    (VSet.item (exRange (some [2]) (some [3]))).difference 5 (.union [exRange (some [1]) (some [4]), exPoint [5]]) =
      .ok (.item (exRange (some [2]) (some [3]))) ∧
    (VSet.union [exPoint [1], exPoint [5]]).difference 5 .empty = .ok .empty := by
  constructor <;> decide +kernel

example : (VSet.item (exRange (some [1]) (some [5]))).difference 2 (.item (exRange (some [2]) (some [3]))) =
    .ok (.union [exRange (some [1]) (some [2]), exRange (some [3]) (some [5])]) := by decide +kernel

/-! ## C24: complement -/

/-- C24. `a.complement()` never fails and contains exactly the versions not in `a`. -/
theorem C24_complement_exact (a : VSet) (ha : a.Normal) :
    ∃ s, (∀ lim, a.complement lim = .ok s) ∧ ∀ v, s.contains v = true ↔ ¬ a.Mem v := by
  obtain ⟨s, s1, -, s3⟩ := complement_spec ha
  refine ⟨s, s1, fun v => ?_⟩
  rw [contains_cov, s3, mem_iff_cov, VSet.Cov]
  exact ⟨fun h => h.2, fun h => ⟨(cutAt_lt_top _ _).ne, h⟩⟩

example : (VSet.item (exPoint [1])).complement 2 = .ok (.union [exRange none (some [1]) false, exRange (some [1]) none false]) ∧
    (VSet.item (exRange none none false)).complement 2 = .ok .empty := by decide +kernel

/-- C24. `a.complement().complement() == a`. -/
theorem C24_complement_involutive (a : VSet) (ha : a.Normal) (lim : Nat) :
    ∃ s t, a.complement lim = .ok s ∧ s.complement lim = .ok t ∧ t.eq a = true := by
  obtain ⟨s, s1, s2, s3⟩ := complement_spec ha
  obtain ⟨t, t1, t2, t3⟩ := complement_spec s2
  refine ⟨s, t, s1 _, t1 _, (eq_iff_cov t2 ha).2 (fun c => ?_)⟩
  rw [t3, s3]
  constructor
  · rintro ⟨h1, h2⟩; by_contra h3; exact h2 ⟨h1, h3⟩
  · intro h; exact ⟨cov_lt_top h, fun h' => h'.2 h⟩

example : (VSet.union [exRange none (some [1]) false, exPoint [5]]).complement 2 =
    .ok (.union [exRange (some [1]) (some [5]), exRange (some [5]) none false]) := by decide +kernel

/-! ## C25: symmetric difference -/

/-- C25. `a.symmetric_difference(b)`, when `a` is not a union and the unions return, contains exactly the versions in one
of `a` and `b` but not in both; except that it is empty when the operands have nothing in common and do not form a single
item together. -/
theorem C25_symmetric_difference (i : Item) (b u s : VSet) (hi : i.Normal) (hb : b.Normal) (lim : Nat)
    (hu : (VSet.item i).unionWith lim b = .ok u) (h : (VSet.item i).symmetricDifference lim b = .ok s) :
    ((∃ v : Version, i.Mem v ∧ b.Mem v) ∨ (∃ j, u = .item j) →
      ∀ v, s.contains v = true ↔ (i.Mem v ∧ ¬ b.Mem v) ∨ (b.Mem v ∧ ¬ i.Mem v)) ∧
    (i.Wf → b.Wf → (∀ v : Version, v.Wf → ¬ (i.Mem v ∧ b.Mem v)) → (∀ j, u ≠ .item j) → s = .empty) := by
  obtain ⟨n, n1, n2, n3⟩ := intersection_spec (a := .item i) hi hb
  obtain ⟨u2, u3⟩ := unionWith_ok (a := .item i) hi hb hu
  simp only [VSet.symmetricDifference, hu, n1] at h
  have h : u.difference lim n = .ok s := h
  constructor
  · intro hgood v
    have hnb : ¬ DiffBad u n := by
      rintro (⟨r, items, rfl, rfl, j, hj, j1, j2⟩ | ⟨items, rfl, rfl⟩)
      · -- an item of the intersection covers the whole union: the intersection would be one item
        have hl : 2 ≤ items.length := n2.1
        have hg := n2.gaps
        have hn := n2.allNormal
        simp only [VSet.extract] at hg hn
        have hsub : ∀ x ∈ items, (Item.range r).lo ≤ x.lo ∧ x.hi ≤ (Item.range r).hi := by
          have := (includes_iff_cov u2 n2).2 (fun c hc => (u3 c).2 (.inl ((n3 c).1 hc).1))
          simp only [VSet.includes, List.all_eq_true] at this
          exact fun x hx => (includesItem_iff (a := .range r) u2 (hn x hx)).1 (this x hx)
        match items, hl, hg, hn, hj, hsub with
        | x :: y :: l, _, hg, hn, hj, hsub =>
          rcases List.mem_cons.1 hj with rfl | hj
          · have h1 := hg.head y (by simp)
            have h2 := hn.tail.head.lo_lt_hi
            have h3 := (hsub y (by simp)).2
            order
          · have h1 := hg.head j hj
            have h2 := hn.head.lo_lt_hi
            have h3 := (hsub x (by simp)).1
            order
      · rcases hgood with ⟨w, w1, w2⟩ | ⟨j, hj⟩
        · exact (n2.eq_empty_iff.1 rfl) (cut w) ((n3 _).2 ⟨(mem_iff_cov (.item i) w).1 w1, (mem_iff_cov b w).1 w2⟩)
        · cases hj
    obtain ⟨t, t1, -, t3⟩ := difference_spec u2 n2 hnb
    rw [t1] at h; cases h
    have e1 : i.Mem v ↔ (VSet.item i).Cov (cut v) := mem_iff_cov (.item i) v
    have e2 : b.Mem v ↔ b.Cov (cut v) := mem_iff_cov b v
    rw [contains_cov, t3, u3, n3, e1, e2]
    by_cases h1 : (VSet.item i).Cov (cut v) <;> by_cases h2 : b.Cov (cut v) <;> simp [h1, h2]
  · intro wi wb hno hnj
    have hdis : ∀ c, (VSet.item i).Cov c → ¬ b.Cov c := by
      intro c h1 h2
      obtain ⟨v, v1, v2, v3⟩ := (overlap_versions (a := .item i) wi wb).1 ⟨c, h1, h2⟩
      exact hno v v1 ⟨v2, v3⟩
    have hn : n = .empty := n2.eq_empty_iff.2 (fun c hc => hdis c ((n3 c).1 hc).1 ((n3 c).1 hc).2)
    subst hn
    cases u with
    | empty => simp only [VSet.difference, Except.ok.injEq] at h; exact h.symm
    | item j => exact absurd rfl (hnj j)
    | union items => rw [difference_bad_empty] at h; cases h; rfl

example : (VSet.item (exRange (some [1]) (some [3]))).unionWith 5 (.item (exPoint [2])) = .ok (.item (exRange (some [1]) (some [3]))) ∧
    (VSet.item (exRange (some [1]) (some [3]))).symmetricDifference 5 (.item (exPoint [2])) =
      .ok (.union [exRange (some [1]) (some [2]), exRange (some [2]) (some [3]) false]) := by decide +kernel

/-- C25. The empty set on the left is exact; a union on the left has no such method. -/
theorem C25_other_cases (b : VSet) (items : List Item) (lim : Nat) :
    VSet.empty.symmetricDifference lim b = .ok b ∧
      (VSet.union items).symmetricDifference lim b = .error .attributeError := ⟨rfl, rfl⟩

example : VSet.empty.symmetricDifference 0 (.item (exPoint [1])) = .ok (.item (exPoint [1])) := (C25_other_cases _ [] _).1

/-- C25, violated. `[1, 2) ^ [3, 4)` is empty. -/
theorem C25_violation :
    (VSet.item (exRange (some [1]) (some [2]))).symmetricDifference 5 (.item (exRange (some [3]) (some [4]))) =
      .ok .empty := by decide +kernel

example : (VSet.item (exRange (some [1]) (some [3]))).symmetricDifference 5 (.item (exRange (some [2]) (some [4]))) =
    .ok (.union [exRange (some [1]) (some [2]), exRange (some [3]) (some [4])]) := by decide +kernel

/-! ## C26-C28: inclusion, overlap, equality -/

/-- C26. If `a.includes(b)` then every version of `b` is in `a`; conversely if every well-formed version of `b` is in
`a`, then `a.includes(b)`. -/
theorem C26_includes (a b : VSet) (ha : a.Normal) (hb : b.Normal) :
    (a.includes b = true → ∀ v, b.Mem v → a.Mem v) ∧
    (a.Wf → b.Wf → (∀ v, v.Wf → b.Mem v → a.Mem v) → a.includes b = true) := by
  constructor
  · intro h v hv
    rw [mem_iff_cov] at hv ⊢
    exact (includes_iff_cov ha hb).1 h _ hv
  · intro wa wb h
    exact (includes_iff_cov ha hb).2 ((subset_versions wa wb).2 h)

example : (VSet.item (exRange (some [1]) none)).includes (.union [exPoint [1, 0], exRange (some [2]) (some [3])]) = true ∧
    (VSet.item (exRange (some [1]) none false)).includes (.item (exPoint [1, 0])) = false := by decide +kernel

/-- C27. `a.intersects(b)` iff `a.intersection(b)` is not empty. -/
theorem C27_intersects_iff_intersection (a b s : VSet) (ha : a.Normal) (hb : b.Normal) (lim : Nat)
    (h : a.intersection lim b = .ok s) : a.intersects b = true ↔ s.isEmpty = false := by
  obtain ⟨t, t1, t2, t3⟩ := intersection_spec ha hb
  obtain rfl : t = s := Except.ok.inj ((t1 lim).symm.trans h)
  rw [intersects_iff_cov ha hb]
  have he : t.isEmpty = false ↔ t ≠ .empty := by
    cases t with
    | empty => simp [VSet.isEmpty]
    | item i => simp [VSet.isEmpty, isEmpty_false (show i.Normal from t2)]
    | union _ => simp [VSet.isEmpty]
  rw [he, ne_eq, t2.eq_empty_iff]
  simp only [t3, not_forall, not_not]

example : (VSet.item (exRange (some [1]) (some [2]))).intersects (.item (exRange (some [2, 0]) none)) = false ∧
    (VSet.item (exRange (some [1]) (some [2]))).intersection 0 (.item (exRange (some [2, 0]) none)) = .ok .empty ∧
    (VSet.item (exRange (some [1]) (some [2]) true true)).intersects (.item (exRange (some [2, 0]) none)) = true := by decide +kernel

/-- C27. `a.intersects(b)` iff some (well-formed) version is in both. -/
theorem C27_intersects_iff_common (a b : VSet) (ha : a.Normal) (hb : b.Normal) (wa : a.Wf) (wb : b.Wf) :
    a.intersects b = true ↔ ∃ v : Version, v.Wf ∧ a.Mem v ∧ b.Mem v := by
  rw [intersects_iff_cov ha hb, overlap_versions wa wb]

example : ∃ v : Version, v.Wf ∧ (exRange (some [1]) (some [3])).Mem v ∧ (exRange (some [2]) none false).Mem v :=
  (C27_intersects_iff_common (.item (exRange (some [1]) (some [3]))) (.item (exRange (some [2]) none false)) (by decide +kernel)
    (by decide +kernel) (by decide +kernel) (by decide +kernel)).1 (by decide +kernel)

/-- C27. `intersects` is symmetric. -/
theorem C27_intersects_symm (a b : VSet) (ha : a.Normal) (hb : b.Normal) : a.intersects b = b.intersects a := by
  rw [Bool.eq_iff_iff, intersects_iff_cov ha hb, intersects_iff_cov hb ha]
  exact exists_congr (fun c => and_comm)

example : (VSet.item (exRange (some [1]) (some [3]))).intersects (.item (exPoint [2, 5])) = true ∧
    (VSet.item (exPoint [2, 5])).intersects (.item (exRange (some [1]) (some [3]))) = true := by decide +kernel

/-- C28. Two sets are `==` iff they contain the same versions. -/
theorem C28_eq_iff_same_versions (a b : VSet) (ha : a.Normal) (hb : b.Normal) (wa : a.Wf) (wb : b.Wf) :
    a.eq b = true ↔ ∀ v : Version, v.Wf → (a.Mem v ↔ b.Mem v) := by
  rw [eq_iff_cov ha hb]
  constructor
  · intro h v _; rw [mem_iff_cov, mem_iff_cov]; exact h _
  · intro h c
    exact ⟨(subset_versions wb wa).2 (fun v hv => (h v hv).1) c, (subset_versions wa wb).2 (fun v hv => (h v hv).2) c⟩

example : (VSet.item (exRange (some [1]) (some [2, 0]))).eq (.item (exRange (some [1, 0]) (some [2]))) = true ∧
    (VSet.item (exRange (some [1]) (some [2]))).eq (.item (exRange (some [1]) (some [2]) false)) = false := by decide +kernel

/-- C28. Equal sets contain the same versions, well-formed or not. -/
theorem C28_eq_same_versions (a b : VSet) (ha : a.Normal) (hb : b.Normal) (h : a.eq b = true) (v : Version) :
    a.contains v = b.contains v := by
  rw [Bool.eq_iff_iff, contains_cov, contains_cov]
  exact (eq_iff_cov ha hb).1 h _

example (v : Version) : (VSet.item (exRange (some [1]) (some [2, 0]))).contains v = (VSet.item (exRange (some [1, 0]) (some [2]))).contains v :=
  C28_eq_same_versions _ _ (by decide +kernel) (by decide +kernel) (by decide +kernel) v

/-- C28. `==` is an equivalence on sets in normal form; mutual inclusion is equality. -/
theorem C28_equivalence (a b c : VSet) (ha : a.Normal) (hb : b.Normal) (hc : c.Normal) :
    a.eq a = true ∧ (a.eq b = true → b.eq a = true) ∧ (a.eq b = true → b.eq c = true → a.eq c = true) ∧
      (a.eq b = true ↔ a.includes b = true ∧ b.includes a = true) := by
  rw [eq_iff_cov ha ha, eq_iff_cov ha hb, eq_iff_cov hb ha, eq_iff_cov hb hc, eq_iff_cov ha hc, includes_iff_cov ha hb,
    includes_iff_cov hb ha]
  refine ⟨fun _ => Iff.rfl, fun h x => (h x).symm, fun h1 h2 x => (h1 x).trans (h2 x), ?_⟩
  exact ⟨fun h => ⟨fun x => (h x).2, fun x => (h x).1⟩, fun h x => ⟨h.2 x, h.1 x⟩⟩

example : (VSet.union [exPoint [1], exPoint [2]]).Normal ∧ (VSet.union [exPoint [1], exPoint [2]]).eq (.union [exPoint [1, 0], exPoint [2, 0]]) = true ∧
    (VSet.union [exPoint [1], exPoint [2]]).eq (.item (exPoint [1])) = false := by decide +kernel

example : (VSet.union [exRange (some [1]) (some [2]), exPoint [3, 1]]).includes (.item (exPoint [1, 5])) = true := by
  rw [includes_iff_cov]
  · intro c hc
    rw [exPoint, point_cov] at hc
    subst hc
    rw [← contains_cov]; decide +kernel
  · refine ⟨by simp, ?_, ?_⟩
    · intro i hi
      simp only [List.mem_cons, List.not_mem_nil, or_false] at hi
      rcases hi with rfl | rfl
      · refine ⟨by simp, by simp, ?_⟩
        rintro a b ⟨⟩ ⟨⟩; decide +kernel
      · trivial
    · simp only [List.pairwise_cons, List.mem_singleton, forall_eq, List.not_mem_nil, false_implies, implies_true, List.Pairwise.nil,
        and_true]
      exact ⟨exVersion [2], exVersion [3, 1], rfl, rfl, .inl (by decide +kernel)⟩
  · trivial

/-! ## C29: boolean algebra -/

/-- C29. Intersection is commutative. -/
theorem C29_intersection_comm (a b s t : VSet) (ha : a.Normal) (hb : b.Normal) (lim : Nat)
    (h1 : a.intersection lim b = .ok s) (h2 : b.intersection lim a = .ok t) : s.eq t = true := by
  obtain ⟨s', s1, s2, s3⟩ := intersection_spec ha hb
  obtain ⟨t', t1, t2, t3⟩ := intersection_spec hb ha
  rw [s1] at h1; rw [t1] at h2; cases h1; cases h2
  rw [eq_iff_cov s2 t2]
  intro c; rw [s3, t3, and_comm]

example : (VSet.item (exPoint [2])).intersection 0 (.item (exPoint [2, 0])) = .ok (.item (exPoint [2])) ∧
    (VSet.item (exPoint [2, 0])).intersection 0 (.item (exPoint [2])) = .ok (.item (exPoint [2, 0])) ∧
    (VSet.item (exPoint [2, 0])).eq (.item (exPoint [2])) = true := by decide +kernel

/-- What a sequence of operations computes: used to state the laws below. -/
theorem inter_ok {a b s : VSet} {lim : Nat} (ha : a.Normal) (hb : b.Normal) (h : a.intersection lim b = .ok s) :
    s.Normal ∧ ∀ c, s.Cov c ↔ a.Cov c ∧ b.Cov c := by
  obtain ⟨s', s1, s2, s3⟩ := intersection_spec ha hb
  rw [s1] at h; cases h; exact ⟨s2, s3⟩

theorem compl_ok {a s : VSet} {lim : Nat} (ha : a.Normal) (h : a.complement lim = .ok s) :
    s.Normal ∧ ∀ c, s.Cov c ↔ c ≠ ⊤ ∧ ¬ a.Cov c := by
  obtain ⟨s', s1, s2, s3⟩ := complement_spec ha
  rw [s1] at h; cases h; exact ⟨s2, s3⟩

/-- C29. Intersection is associative. -/
theorem C29_intersection_assoc (a b c ab bc s t : VSet) (ha : a.Normal) (hb : b.Normal) (hc : c.Normal) (lim : Nat)
    (h1 : a.intersection lim b = .ok ab) (h2 : ab.intersection lim c = .ok s)
    (h3 : b.intersection lim c = .ok bc) (h4 : a.intersection lim bc = .ok t) : s.eq t = true := by
  obtain ⟨n1, e1⟩ := inter_ok ha hb h1
  obtain ⟨n2, e2⟩ := inter_ok n1 hc h2
  obtain ⟨n3, e3⟩ := inter_ok hb hc h3
  obtain ⟨n4, e4⟩ := inter_ok ha n3 h4
  rw [eq_iff_cov n2 n4]
  intro x; rw [e2, e1, e4, e3, and_assoc]

example : ∃ ab bc s, (VSet.item (exRange (some [1]) none)).intersection 0 (.item (exRange none (some [3]) false)) = .ok ab ∧
    ab.intersection 0 (.item (exRange (some [2]) none)) = .ok s ∧
    (VSet.item (exRange none (some [3]) false)).intersection 0 (.item (exRange (some [2]) none)) = .ok bc ∧
    (VSet.item (exRange (some [1]) none)).intersection 0 bc = .ok s ∧ s = .item (exRange (some [2]) (some [3])) :=
  ⟨.item (exRange (some [1]) (some [3])), .item (exRange (some [2]) (some [3])), _, by decide +kernel, by decide +kernel, by decide +kernel,
    by decide +kernel, rfl⟩

/-- C29. Intersection and union are idempotent; union of a set with itself always returns. -/
theorem C29_idempotent (a : VSet) (ha : a.Normal) :
    (∃ s, (∀ lim, a.intersection lim a = .ok s) ∧ s.eq a = true) ∧
      ∃ s, (∀ lim, a.unionWith (lim + 2) a = .ok s) ∧ s.eq a = true := by
  obtain ⟨s, s1, s2, s3⟩ := intersection_spec ha ha
  refine ⟨⟨s, s1, (eq_iff_cov s2 ha).2 (fun c => by rw [s3, and_self])⟩, ?_⟩
  have hnb : ¬ UnionBad a a := by
    rintro ⟨h, -⟩
    apply gaps_not_bad ha.allNormal ha.gaps
    obtain ⟨p, hp, hpp, ⟨r, hr, hrr, hlo⟩, hno⟩ := h
    simp only [List.mem_append, or_self] at hp hr hno
    exact ⟨p, hp, hpp, ⟨r, hr, hrr, hlo⟩, hno⟩
  obtain ⟨u, u1, u2, u3⟩ := (unionWith_spec ha ha).1 hnb
  exact ⟨u, u1, (eq_iff_cov u2 ha).2 (fun c => by rw [u3, or_self])⟩

example : (VSet.item (exRange (some [1]) (some [2]))).unionWith 2 (.item (exRange (some [1]) (some [2]))) =
    .ok (.item (exRange (some [1]) (some [2]))) := by decide +kernel

/-- C29. Union is commutative (whenever both unions return). -/
theorem C29_union_comm (a b s t : VSet) (ha : a.Normal) (hb : b.Normal) (lim : Nat)
    (h1 : a.unionWith lim b = .ok s) (h2 : b.unionWith lim a = .ok t) : s.eq t = true := by
  obtain ⟨n1, e1⟩ := unionWith_ok ha hb h1
  obtain ⟨n2, e2⟩ := unionWith_ok hb ha h2
  rw [eq_iff_cov n1 n2]
  intro c; rw [e1, e2, or_comm]

example : (VSet.item (exRange (some [1]) (some [2]))).unionWith 2 (.item (exRange (some [1, 0]) (some [2, 0]))) =
      .ok (.item (exRange (some [1, 0]) (some [2, 0]))) ∧
    (VSet.item (exRange (some [1, 0]) (some [2, 0]))).unionWith 2 (.item (exRange (some [1]) (some [2]))) =
      .ok (.item (exRange (some [1]) (some [2]))) := by decide +kernel

/-- C29. Union is associative (whenever the unions return). -/
theorem C29_union_assoc (a b c ab bc s t : VSet) (ha : a.Normal) (hb : b.Normal) (hc : c.Normal) (lim : Nat)
    (h1 : a.unionWith lim b = .ok ab) (h2 : ab.unionWith lim c = .ok s)
    (h3 : b.unionWith lim c = .ok bc) (h4 : a.unionWith lim bc = .ok t) : s.eq t = true := by
  obtain ⟨n1, e1⟩ := unionWith_ok ha hb h1
  obtain ⟨n2, e2⟩ := unionWith_ok n1 hc h2
  obtain ⟨n3, e3⟩ := unionWith_ok hb hc h3
  obtain ⟨n4, e4⟩ := unionWith_ok ha n3 h4
  rw [eq_iff_cov n2 n4]
  intro x; rw [e2, e1, e4, e3, or_assoc]

example : ∃ ab bc s, (VSet.item (exRange (some [1]) (some [2]))).unionWith 3 (.item (exPoint [3])) = .ok ab ∧
    ab.unionWith 3 (.item (exRange (some [2]) (some [3]))) = .ok s ∧
    (VSet.item (exPoint [3])).unionWith 3 (.item (exRange (some [2]) (some [3]))) = .ok bc ∧
    (VSet.item (exRange (some [1]) (some [2]))).unionWith 3 bc = .ok s ∧ s = .item (exRange (some [1]) (some [3]) true true) :=
  ⟨.union [exRange (some [1]) (some [2]), exPoint [3]], .item (exRange (some [2]) (some [3]) true true), _, by decide +kernel,
    by decide +kernel, by decide +kernel, by decide +kernel, rfl⟩

/-- C29. Absorption: `a & (a | b) == a` and `a | (a & b) == a`. -/
theorem C29_absorption (a b ab s ab' t : VSet) (ha : a.Normal) (hb : b.Normal) (lim : Nat)
    (h1 : a.unionWith lim b = .ok ab) (h2 : a.intersection lim ab = .ok s)
    (h3 : a.intersection lim b = .ok ab') (h4 : a.unionWith lim ab' = .ok t) : s.eq a = true ∧ t.eq a = true := by
  obtain ⟨n1, e1⟩ := unionWith_ok ha hb h1
  obtain ⟨n2, e2⟩ := inter_ok ha n1 h2
  obtain ⟨n3, e3⟩ := inter_ok ha hb h3
  obtain ⟨n4, e4⟩ := unionWith_ok ha n3 h4
  rw [eq_iff_cov n2 ha, eq_iff_cov n4 ha]
  constructor
  · intro c; rw [e2, e1, and_iff_left_iff_imp]; exact .inl
  · intro c; rw [e4, e3, or_iff_left_iff_imp]; exact fun h => h.1

example : (VSet.item (exRange (some [1]) (some [3]))).unionWith 2 (.item (exRange (some [2]) none)) = .ok (.item (exRange (some [1]) none)) ∧
    (VSet.item (exRange (some [1]) (some [3]))).intersection 2 (.item (exRange (some [1]) none)) = .ok (.item (exRange (some [1]) (some [3]))) ∧
    (VSet.item (exRange (some [1]) (some [3]))).intersection 2 (.item (exRange (some [2]) none)) = .ok (.item (exRange (some [2]) (some [3]))) ∧
    (VSet.item (exRange (some [1]) (some [3]))).unionWith 2 (.item (exRange (some [2]) (some [3]))) = .ok (.item (exRange (some [1]) (some [3]))) := by
  decide +kernel

/-- C29. `a & (b | c) == (a & b) | (a & c)`. -/
theorem C29_distributive (a b c bc s ab ac t : VSet) (ha : a.Normal) (hb : b.Normal) (hc : c.Normal) (lim : Nat)
    (h1 : b.unionWith lim c = .ok bc) (h2 : a.intersection lim bc = .ok s)
    (h3 : a.intersection lim b = .ok ab) (h4 : a.intersection lim c = .ok ac) (h5 : ab.unionWith lim ac = .ok t) :
    s.eq t = true := by
  obtain ⟨n1, e1⟩ := unionWith_ok hb hc h1
  obtain ⟨n2, e2⟩ := inter_ok ha n1 h2
  obtain ⟨n3, e3⟩ := inter_ok ha hb h3
  obtain ⟨n4, e4⟩ := inter_ok ha hc h4
  obtain ⟨n5, e5⟩ := unionWith_ok n3 n4 h5
  rw [eq_iff_cov n2 n5]
  intro x; rw [e2, e1, e5, e3, e4, and_or_left]

example : (VSet.item (exRange none (some [2]) false)).unionWith 2 (.item (exRange (some [3]) none)) =
      .ok (.union [exRange none (some [2]) false, exRange (some [3]) none]) ∧
    (VSet.item (exRange (some [1]) (some [4]))).intersection 2 (.item (exRange none (some [2]) false)) = .ok (.item (exRange (some [1]) (some [2]))) ∧
    (VSet.item (exRange (some [1]) (some [4]))).intersection 2 (.item (exRange (some [3]) none)) = .ok (.item (exRange (some [3]) (some [4]))) ∧
    (VSet.item (exRange (some [1]) (some [2]))).unionWith 2 (.item (exRange (some [3]) (some [4]))) =
      .ok (.union [exRange (some [1]) (some [2]), exRange (some [3]) (some [4])]) := by decide +kernel

/-- C29. `a | (b & c) == (a | b) & (a | c)`. -/
theorem C29_distributive_union (a b c bc s ab ac t : VSet) (ha : a.Normal) (hb : b.Normal) (hc : c.Normal) (lim : Nat)
    (h1 : b.intersection lim c = .ok bc) (h2 : a.unionWith lim bc = .ok s)
    (h3 : a.unionWith lim b = .ok ab) (h4 : a.unionWith lim c = .ok ac) (h5 : ab.intersection lim ac = .ok t) :
    s.eq t = true := by
  obtain ⟨n1, e1⟩ := inter_ok hb hc h1
  obtain ⟨n2, e2⟩ := unionWith_ok ha n1 h2
  obtain ⟨n3, e3⟩ := unionWith_ok ha hb h3
  obtain ⟨n4, e4⟩ := unionWith_ok ha hc h4
  obtain ⟨n5, e5⟩ := inter_ok n3 n4 h5
  rw [eq_iff_cov n2 n5]
  intro x; rw [e2, e1, e5, e3, e4, or_and_left]

example : (VSet.item (exRange (some [2]) none)).intersection 2 (.item (exRange none (some [3]) false)) = .ok (.item (exRange (some [2]) (some [3]))) ∧
    (VSet.item (exRange (some [1]) (some [2]))).unionWith 2 (.item (exRange (some [2]) (some [3]))) = .ok (.item (exRange (some [1]) (some [3]))) ∧
    (VSet.item (exRange (some [1]) (some [2]))).unionWith 2 (.item (exRange (some [2]) none)) = .ok (.item (exRange (some [1]) none)) ∧
    (VSet.item (exRange (some [1]) (some [2]))).unionWith 2 (.item (exRange none (some [3]) false)) = .ok (.item (exRange none (some [3]) false)) ∧
    (VSet.item (exRange (some [1]) none)).intersection 2 (.item (exRange none (some [3]) false)) = .ok (.item (exRange (some [1]) (some [3]))) := by
  decide +kernel

/-- C29. De Morgan: `~(a | b) == ~a & ~b` and `~(a & b) == ~a | ~b` (whenever the unions return). -/
theorem C29_de_morgan (a b na nb u cu i t n cn j : VSet) (ha : a.Normal) (hb : b.Normal) (lim : Nat)
    (h1 : a.complement lim = .ok na) (h2 : b.complement lim = .ok nb)
    (h3 : a.unionWith lim b = .ok u) (h4 : u.complement lim = .ok cu) (h5 : na.intersection lim nb = .ok i)
    (h6 : a.intersection lim b = .ok n) (h7 : n.complement lim = .ok cn) (h8 : na.unionWith lim nb = .ok j) :
    cu.eq i = true ∧ cn.eq j = true := by
  obtain ⟨n1, e1⟩ := compl_ok ha h1
  obtain ⟨n2, e2⟩ := compl_ok hb h2
  obtain ⟨n3, e3⟩ := unionWith_ok ha hb h3
  obtain ⟨n4, e4⟩ := compl_ok n3 h4
  obtain ⟨n5, e5⟩ := inter_ok n1 n2 h5
  obtain ⟨n6, e6⟩ := inter_ok ha hb h6
  obtain ⟨n7, e7⟩ := compl_ok n6 h7
  obtain ⟨n8, e8⟩ := unionWith_ok n1 n2 h8
  rw [eq_iff_cov n4 n5, eq_iff_cov n7 n8]
  constructor
  · intro c; rw [e4, e3, e5, e1, e2]
    by_cases x : c = ⊤ <;> by_cases y : a.Cov c <;> by_cases z : b.Cov c <;> simp [x, y, z]
  · intro c; rw [e7, e6, e8, e1, e2]
    by_cases x : c = ⊤ <;> by_cases y : a.Cov c <;> by_cases z : b.Cov c <;> simp [x, y, z]

example : (VSet.item (exRange (some [1]) none)).complement 2 = .ok (.item (exRange none (some [1]) false)) ∧
    (VSet.item (exRange (some [2]) none)).complement 2 = .ok (.item (exRange none (some [2]) false)) ∧
    (VSet.item (exRange (some [1]) none)).unionWith 2 (.item (exRange (some [2]) none)) = .ok (.item (exRange (some [1]) none)) ∧
    (VSet.item (exRange none (some [1]) false)).intersection 2 (.item (exRange none (some [2]) false)) = .ok (.item (exRange none (some [1]) false)) ∧
    (VSet.item (exRange (some [1]) none)).intersection 2 (.item (exRange (some [2]) none)) = .ok (.item (exRange (some [2]) none)) ∧
    (VSet.item (exRange none (some [1]) false)).unionWith 2 (.item (exRange none (some [2]) false)) = .ok (.item (exRange none (some [2]) false)) := by
  decide +kernel

/-- C29. A set and its complement have nothing in common and together hold everything. -/
theorem C29_complement_laws (a na : VSet) (ha : a.Normal) (lim : Nat) (h : a.complement lim = .ok na) :
    a.intersection lim na = .ok .empty ∧ ∀ u, a.unionWith lim na = .ok u → u.eq .universal = true := by
  obtain ⟨n1, e1⟩ := compl_ok ha h
  obtain ⟨s, s1, s2, s3⟩ := intersection_spec ha n1
  constructor
  · rw [s1, s2.eq_empty_iff.2]
    intro c hc
    rw [s3, e1] at hc
    exact hc.2.2 hc.1
  · intro u hu
    obtain ⟨n2, e2⟩ := unionWith_ok ha n1 hu
    rw [eq_iff_cov (b := .universal) n2 universal_normal]
    intro c
    rw [e2, e1, universal_cov]
    constructor
    · rintro (h | h)
      · exact cov_lt_top h
      · exact h.1
    · intro h
      by_cases hc : a.Cov c
      · exact .inl hc
      · exact .inr ⟨h, hc⟩

example : (VSet.item (exRange (some [1]) (some [2]))).complement 2 = .ok (.union [exRange none (some [1]) false, exRange (some [2]) none]) ∧
    (VSet.item (exRange (some [1]) (some [2]))).unionWith 2 (.union [exRange none (some [1]) false, exRange (some [2]) none]) = .ok .universal := by
  decide +kernel

/-- C29. The empty and universal sets are neutral and absorbing. -/
theorem C29_bounds (a : VSet) (ha : a.Normal) (lim : Nat) :
    (∃ s, a.intersection lim .universal = .ok s ∧ s.eq a = true) ∧ a.intersection lim .empty = .ok .empty ∧
      (∀ s, a.unionWith lim .empty = .ok s → s.eq a = true) ∧
      ∀ s, a.unionWith lim .universal = .ok s → s.eq .universal = true := by
  obtain ⟨s, s1, s2, s3⟩ := intersection_spec (b := .universal) ha universal_normal
  obtain ⟨t, t1, t2, t3⟩ := intersection_spec (b := .empty) ha trivial
  have hempty : ∀ c, ¬ VSet.empty.Cov c := fun c h => (cov_nil c).1 h
  refine ⟨⟨s, s1 _, (eq_iff_cov s2 ha).2 (fun c => ?_)⟩, ?_, ?_, ?_⟩
  · rw [s3, universal_cov]; exact ⟨fun h => h.1, fun h => ⟨h, cov_lt_top h⟩⟩
  · rw [t1, t2.eq_empty_iff.2]
    intro c hc; rw [t3] at hc; exact hempty c hc.2
  · intro u hu
    obtain ⟨n2, e2⟩ := unionWith_ok (b := .empty) ha trivial hu
    rw [eq_iff_cov n2 ha]
    intro c; rw [e2]; exact ⟨fun h => h.resolve_right (hempty c), .inl⟩
  · intro u hu
    obtain ⟨n2, e2⟩ := unionWith_ok (b := .universal) ha universal_normal hu
    rw [eq_iff_cov (b := .universal) n2 universal_normal]
    intro c; rw [e2]
    constructor
    · rintro (h | h)
      · rw [universal_cov]; exact cov_lt_top h
      · exact h
    · exact .inr

example : (VSet.item (exPoint [1])).intersection 2 .universal = .ok (.item (exPoint [1])) ∧
    (VSet.item (exPoint [1])).unionWith 2 .empty = .ok (.item (exPoint [1])) ∧ (VSet.item (exPoint [1])).unionWith 2 .universal = .ok .universal := by
  decide +kernel

/-! ## C30: order of items -/

/-- C30. `compare` is lexicographic: first by the lower ends, then by the upper ends. -/
theorem C30_compare_lexicographic (a b : Item) (ha : a.Normal) (hb : b.Normal) :
    (a.compare b = .lt ↔ a.StartsBefore b ∨ (¬ b.StartsBefore a ∧ a.EndsBefore b)) ∧
    (a.compare b = .gt ↔ b.compare a = .lt) ∧ (a.compare b = .eq ↔ a.eq b = true) := by
  have ea := ha.endsOk
  have eb := hb.endsOk
  simp only [startsBefore_iff, endsBefore_iff]
  refine ⟨?_, ?_, ?_⟩
  · rw [compare_lt_iff ea eb]
    constructor
    · rintro (h | ⟨h1, h2⟩)
      · exact .inl h
      · exact .inr ⟨by order, h2⟩
    · rintro (h | ⟨h1, h2⟩)
      · exact .inl h
      · by_cases h3 : a.lo < b.lo
        · exact .inl h3
        · exact .inr ⟨by order, h2⟩
  · rw [compare_gt_iff ea eb, compare_lt_iff eb ea]
    constructor <;> (rintro (h | ⟨h1, h2⟩); exact .inl h; exact .inr ⟨h1.symm, h2⟩)
  · rw [item_eq_iff ea eb]
    have hlt := compare_lt_iff ea eb
    have hgt := compare_gt_iff ea eb
    constructor
    · intro h
      rw [h] at hlt hgt
      simp only [reduceCtorEq, false_iff, not_or, not_and] at hlt hgt
      obtain ⟨h1, h2⟩ := hlt
      obtain ⟨h3, h4⟩ := hgt
      have h5 : a.lo = b.lo := by order
      have := h2 h5
      have := h4 h5
      exact ⟨h5, by order⟩
    · rintro ⟨h1, h2⟩
      cases hc : a.compare b with
      | eq => rfl
      | lt =>
        rcases hlt.1 hc with h | h
        · exact absurd h1 h.ne
        · exact absurd h2 h.2.ne
      | gt =>
        rcases hgt.1 hc with h | h
        · exact absurd h1.symm h.ne
        · exact absurd h2.symm h.2.ne

example : (exRange (some [1]) (some [3])).compare (exRange (some [1, 0]) (some [3]) true true) = .lt ∧
    (exRange (some [1]) (some [3]) false).compare (exPoint [1, 0]) = .gt ∧ (exPoint [1]).compare (exPoint [1, 0]) = .eq := by decide +kernel

theorem isHigher_asymm (a b : Item) (h1 : a.isHigher b = true) (h2 : b.isHigher a = true) : False := by
  unfold Item.isHigher Item.excludeMax at h1 h2
  simp only [elt_iff, egt_iff] at h1 h2
  rcases lt_trichotomy (extKey Version.key a.comparableMax) (extKey Version.key b.comparableMax) with h | h | h
  · simp [h] at h1
  · simp [h] at h1 h2; simp [h1, h2] at *
  · simp [h] at h2

/-- C30. `<`, `<=`, `==` on items: total, transitive, `<=` is `<` or `==`. Also for items not in normal form. -/
theorem C30_total_order (a b c : Item) :
    (a.lt b = true ∨ b.lt a = true ∨ a.compare b = .eq) ∧ ¬ (a.lt b = true ∧ b.lt a = true) ∧
      (a.lt b = true → b.lt c = true → a.lt c = true) ∧ (a.le b = true → b.le c = true → a.le c = true) ∧
      (a.le b = true ↔ a.lt b = true ∨ a.compare b = .eq) ∧ (a.gt b = true ↔ b.lt a = true) ∧ (a.ge b = true ↔ b.le a = true) := by
  have hgt : ∀ a b : Item, a.compare b = .gt ↔ b.lt a = true := by
    intro a b
    rw [Item.lt, beq_iff_eq]
    rw [compare_eq, compare_eq]
    have h1 := item_lt_key a b
    have h2 := item_lt_key b a
    rw [Item.lt, beq_iff_eq, compare_eq] at h1 h2
    by_cases p : a.isLower b = true <;> by_cases q : b.isLower a = true <;> by_cases r : a.isHigher b = true <;>
      by_cases s : b.isHigher a = true <;> simp only [p, q, r, s, if_true, if_false, Bool.false_eq_true, reduceCtorEq, true_iff, false_iff, iff_true, iff_false, not_false_eq_true] at h1 h2 ⊢ <;>
      first | exact absurd h2 (not_lt_of_gt h1) | exact (isHigher_asymm _ _ r s).elim
  have hle : ∀ a b : Item, a.le b = true ↔ a.sortKey ≤ b.sortKey := by
    intro a b
    rw [Item.le, bne_iff_ne, ne_eq, hgt, item_lt_key, not_lt]
  have heq : ∀ a b : Item, a.compare b = .eq ↔ a.sortKey = b.sortKey := by
    intro a b
    have h1 := item_lt_key a b
    have h2 := item_lt_key b a
    have h3 := hgt a b
    rw [Item.lt, beq_iff_eq] at h1
    rw [h2] at h3
    cases hc : a.compare b with
    | eq =>
      rw [hc] at h1 h3
      simp only [reduceCtorEq, false_iff, not_lt] at h1 h3
      simp only [true_iff]; order
    | lt => rw [hc] at h1; simp only [true_iff] at h1; simp only [reduceCtorEq, false_iff]; exact h1.ne
    | gt => rw [hc] at h3; simp only [true_iff] at h3; simp only [reduceCtorEq, false_iff]; exact h3.ne'
  simp only [hle, heq, item_lt_key, Item.gt, Item.ge, beq_iff_eq, hgt, bne_iff_ne, ne_eq]
  refine ⟨?_, ?_, lt_trans, le_trans, le_iff_lt_or_eq, trivial, ?_⟩
  · rcases lt_trichotomy a.sortKey b.sortKey with h | h | h
    · exact .inl h
    · exact .inr (.inr h)
    · exact .inr (.inl h)
  · rintro ⟨h1, h2⟩; exact lt_asymm h1 h2
  · have := item_lt_key a b
    rw [Item.lt, beq_iff_eq] at this
    rw [this, not_lt]

example : (exRange (some [1]) none).lt (exRange (some [1]) none false) = true := by decide +kernel
example : (exRange none (some [9]) false).lt (exPoint [1]) = true := by decide +kernel

/-! ## C31: `VersionUnion.of` -/

/-- C31. `VersionUnion.of` contains exactly the versions of its arguments, whatever their number. -/
theorem C31_unionOf_exact (sets : List VSet) (hn : ∀ s ∈ sets, s.Normal) (lim : Nat) (u : VSet)
    (h : VSet.unionOf lim sets = .ok u) (v : Version) : u.contains v = true ↔ ∃ s ∈ sets, s.Mem v := by
  have hall : AllNormal (sets.flatMap VSet.extract) := by
    intro i hi
    obtain ⟨s, hs, his⟩ := List.mem_flatMap.1 hi
    exact (hn s hs).allNormal i his
  obtain ⟨h1, h2⟩ := mergeItems_spec hall
  by_cases hb : Bad (sets.flatMap VSet.extract)
  · rw [VSet.unionOf, h2 hb] at h; cases h
  · obtain ⟨t, t1, t2, t3⟩ := h1 hb
    have := unionOf_mono h
    rw [VSet.unionOf, t1] at this; cases this
    rw [contains_cov, VSet.Cov, t3]
    simp only [Cov, mem_iff_cov, List.mem_flatMap]
    constructor
    · rintro ⟨i, ⟨s, hs, hi⟩, h⟩; exact ⟨s, hs, i, hi, h⟩
    · rintro ⟨s, hs, i, hi, h⟩; exact ⟨i, ⟨s, hs, hi⟩, h⟩

example : VSet.unionOf 3 [.item (exRange (some [2]) none), .empty, .item (exPoint [1]), .item (exRange (some [3]) (some [4]))] =
    .ok (.union [exPoint [1], exRange (some [2]) none]) := by decide +kernel

/-- C31. `VersionUnion.of` does not depend on the order of the arguments: same failure or equal results. -/
theorem C31_unionOf_perm (sets sets' : List VSet) (hp : sets.Perm sets') (hn : ∀ s ∈ sets, s.Normal) (lim : Nat) :
    (VSet.unionOf (lim + 1) sets = .error .recursionError ∧ VSet.unionOf (lim + 1) sets' = .error .recursionError) ∨
    ∃ u u', VSet.unionOf (lim + 1) sets = .ok u ∧ VSet.unionOf (lim + 1) sets' = .ok u' ∧ u.eq u' = true := by
  have hnorm : ∀ l : List VSet, (∀ s ∈ l, s.Normal) → AllNormal (l.flatMap VSet.extract) := by
    intro l hl i hi
    obtain ⟨s, hs, his⟩ := List.mem_flatMap.1 hi
    exact (hl s hs).allNormal i his
  have hall := hnorm sets hn
  have hall' := hnorm sets' (fun s hs => hn s (hp.mem_iff.2 hs))
  have hpf : (sets.flatMap VSet.extract).Perm (sets'.flatMap VSet.extract) := hp.flatMap_right _
  obtain ⟨h1, h2⟩ := mergeItems_spec hall
  obtain ⟨h1', h2'⟩ := mergeItems_spec hall'
  by_cases hb : Bad (sets.flatMap VSet.extract)
  · exact .inl ⟨h2 hb _, h2' ((Bad.perm hpf).1 hb) _⟩
  · right
    obtain ⟨t, t1, t2, t3⟩ := h1 hb
    obtain ⟨t', t1', t2', t3'⟩ := h1' (fun h => hb ((Bad.perm hpf).2 h))
    refine ⟨t, t', t1 _, t1' _, (eq_iff_cov t2 t2').2 (fun c => ?_)⟩
    unfold VSet.Cov
    rw [t3, t3', cov_perm hpf]

example : VSet.unionOf 3 [.item (exPoint [3]), .item (exRange (some [1]) (some [2])), .item (exRange (some [2]) (some [3]))] =
    .ok (.item (exRange (some [1]) (some [3]) true true)) := by decide +kernel

/-! ## C19: normal form -/

/-- C19. The results of operations on sets in normal form are in normal form. -/
theorem C19_normal_closed (a b s : VSet) (ha : a.Normal) (hb : b.Normal) (lim : Nat)
    (h : a.intersection lim b = .ok s ∨ a.unionWith lim b = .ok s ∨ a.difference lim b = .ok s ∨ a.complement lim = .ok s ∨
      a.symmetricDifference lim b = .ok s) : s.Normal := by
  have hdiff : ∀ a b s : VSet, a.Normal → b.Normal → a.difference lim b = .ok s → s.Normal := by
    intro a b s ha hb h
    by_cases hbad : DiffBad a b
    · rcases hbad with ⟨r, items, rfl, rfl, hj⟩ | ⟨items, rfl, rfl⟩
      · rw [difference_bad_covered ha hb hj] at h; cases h; exact ha
      · rw [difference_bad_empty] at h; cases h; trivial
    · obtain ⟨t, t1, t2, -⟩ := difference_spec ha hb hbad
      rw [t1] at h; cases h; exact t2
  rcases h with h | h | h | h | h
  · exact (inter_ok ha hb h).1
  · exact (unionWith_ok ha hb h).1
  · exact hdiff _ _ _ ha hb h
  · exact (compl_ok ha h).1
  · cases a with
    | empty => cases h; exact hb
    | union l => cases h
    | item i =>
      simp only [VSet.symmetricDifference] at h
      cases hu : (VSet.item i).unionWith lim b with
      | error e => rw [hu] at h; cases h
      | ok u => cases hn : (VSet.item i).intersection lim b with
        | error e => rw [hu, hn] at h; cases h
        | ok n =>
          rw [hu, hn] at h
          exact hdiff _ _ _ (unionWith_ok ha hb hu).1 (inter_ok ha hb hn).1 h

example : (VSet.union [exRange (some [1]) (some [2]), exRange (some [2]) none false]).Normal :=
  C19_normal_closed (.item (exRange (some [1]) none)) (.item (exPoint [2])) _ (by decide +kernel) (by decide +kernel) 2
    (.inr (.inr (.inl (by decide +kernel))))

/-- C19. A set in normal form with more than one item has no universal item, and every item has a version between its
ends: none is empty. -/
theorem C19_normal_meaning (items : List Item) (h : (VSet.union items).Normal) (w : (VSet.union items).Wf) (i : Item) (hi : i ∈ items) :
    i.isUniversal = false ∧ i.isEmpty = false ∧ ∃ v : Version, v.Wf ∧ i.Mem v := by
  have hn := h.allNormal i hi
  refine ⟨?_, isEmpty_false hn, ?_⟩
  · rw [Bool.eq_false_iff, ne_eq, isUniversal_iff hn]
    rintro rfl
    have hl : 2 ≤ items.length := h.1
    have hg := h.gaps
    simp only [VSet.extract] at hg
    match items, hl, hi, hg with
    | x :: y :: l, _, hi, hg =>
      rcases List.mem_cons.1 hi with rfl | hi
      · exact absurd (hg.head y (by simp)) not_top_lt
      · exact absurd (hg.head _ hi) not_lt_bot
  · obtain ⟨v, v1, v2, v3⟩ := exists_between (w i hi).lo (w i hi).hi hn.lo_lt_hi
    exact ⟨v, v1, (mem_iff_cut i v).2 ⟨v2, v3⟩⟩

example : ∃ v : Version, v.Wf ∧ (exRange (some [1]) (some [2]) false).Mem v :=
  (C19_normal_meaning [exPoint [1, 0, 0], exRange (some [1, 1]) (some [2]) false] (by decide +kernel) (by decide +kernel)
    (exRange (some [1, 1]) (some [2]) false) (.tail _ (.head _))).2.2.imp fun v h => ⟨h.1, by
      obtain ⟨-, h1, h2⟩ := h
      exact ⟨fun m hm => .inl (by cases hm; exact (C01_trans _ _ _).1 (by decide +kernel) ((h1 _ rfl).resolve_right (by simp))), h2⟩⟩

/-! ## C48: operations invent no versions -/

/-- C48. Every end of a result is an end of an operand: whatever holds for all ends of the operands (here `P`) holds for
all ends of the result. No normal form is assumed. -/
theorem C48_ends_from_operands (P : Version → Prop) (a b s : VSet) (lim : Nat)
    (ha : ∀ i, a.Has i → (∀ v, i.min = some v → P v) ∧ ∀ v, i.max = some v → P v)
    (hb : ∀ i, b.Has i → (∀ v, i.min = some v → P v) ∧ ∀ v, i.max = some v → P v)
    (h : a.intersection lim b = .ok s ∨ a.unionWith lim b = .ok s ∨ a.difference lim b = .ok s ∨ a.complement lim = .ok s ∨
      a.symmetricDifference lim b = .ok s) :
    ∀ i, s.Has i → (∀ v, i.min = some v → P v) ∧ ∀ v, i.max = some v → P v := by
  have ha' : AllEnds P a.extract := fun i hi => ha i ((has_iff a i).2 hi)
  have hb' : AllEnds P b.extract := fun i hi => hb i ((has_iff b i).2 hi)
  have : AllEnds P s.extract := by
    rcases h with h | h | h | h | h
    · exact intersection_ends ha' hb' h
    · exact unionWith_ends ha' hb' h
    · exact difference_ends ha' hb' h
    · exact complement_ends ha' h
    · exact symmetricDifference_ends ha' hb' h
  exact fun i hi => this i ((has_iff s i).1 hi)

example : ∀ i, (VSet.union [exRange (some [1]) (some [2]), exRange (some [3]) none]).Has i →
    (∀ v, i.min = some v → v.Canonical) ∧ ∀ v, i.max = some v → v.Canonical :=
  C48_ends_from_operands _ (.item (exRange (some [1]) none)) (.item (exRange (some [2]) (some [3]))) _ 5
    (by intro i hi; cases hi; decide +kernel) (by intro i hi; cases hi; decide +kernel) (.inr (.inr (.inl (by decide +kernel))))

/-! ## C49: operations respect equality -/

/-- C49. Equal operands (`==`) give equal results, so results do not depend on how a set was built. -/
theorem C49_congruence (a a' b b' s s' : VSet) (ha : a.Normal) (ha' : a'.Normal) (hb : b.Normal) (hb' : b'.Normal) (lim : Nat)
    (h1 : a.eq a' = true) (h2 : b.eq b' = true) :
    (a.intersection lim b = .ok s → a'.intersection lim b' = .ok s' → s.eq s' = true) ∧
    (a.unionWith lim b = .ok s → a'.unionWith lim b' = .ok s' → s.eq s' = true) ∧
    (a.complement lim = .ok s → a'.complement lim = .ok s' → s.eq s' = true) ∧
    a.includes b = a'.includes b' ∧ a.intersects b = a'.intersects b' := by
  rw [eq_iff_cov ha ha'] at h1
  rw [eq_iff_cov hb hb'] at h2
  refine ⟨?_, ?_, ?_, ?_, ?_⟩
  · intro h h'
    obtain ⟨n1, e1⟩ := inter_ok ha hb h
    obtain ⟨n2, e2⟩ := inter_ok ha' hb' h'
    rw [eq_iff_cov n1 n2]
    intro c; rw [e1, e2, h1, h2]
  · intro h h'
    obtain ⟨n1, e1⟩ := unionWith_ok ha hb h
    obtain ⟨n2, e2⟩ := unionWith_ok ha' hb' h'
    rw [eq_iff_cov n1 n2]
    intro c; rw [e1, e2, h1, h2]
  · intro h h'
    obtain ⟨n1, e1⟩ := compl_ok ha h
    obtain ⟨n2, e2⟩ := compl_ok ha' h'
    rw [eq_iff_cov n1 n2]
    intro c; rw [e1, e2, h1]
  · rw [Bool.eq_iff_iff, includes_iff_cov ha hb, includes_iff_cov ha' hb']
    exact forall_congr' (fun c => by rw [h1, h2])
  · rw [Bool.eq_iff_iff, intersects_iff_cov ha hb, intersects_iff_cov ha' hb']
    exact exists_congr (fun c => by rw [h1, h2])

example : (VSet.item (exRange (some [2, 0]) (some [3, 0]))).eq (.item (exRange (some [2]) (some [3]))) = true :=
  (C49_congruence (.item (exRange (some [2, 0]) none)) (.item (exRange (some [2]) none)) (.item (exRange (some [1, 0]) (some [3, 0])))
    (.item (exRange (some [1]) (some [3]))) _ _ (by decide +kernel) (by decide +kernel) (by decide +kernel) (by decide +kernel) 5
    (by decide +kernel) (by decide +kernel)).1 (by decide +kernel) (by decide +kernel)

end Verif
