import Verif.Props.OppositeBounds
/-!
# C143: what comparisons have in common and leave of each other, as sets
-/

namespace Verif

/-- `<`, `<=`, `>`, `>=`. -/
def OpType.IsBound (t : OpType) : Prop := t ∈ [OpType.less, .lessOrEqual, .greater, .greaterOrEqual]

namespace BoundPairs

theorem sets_of {lim : Nat} {r : PyStr} {x : VSet} (hx : VSet.parse lim r = .ok x) : x.Normal ∧ x.Wf :=
  ⟨(C67_parsed lim r x hx).1, VSet.Canonical.wf (C67_parsed lim r x hx).2⟩

/-- A set in normal form whose versions are known is empty, or equal to another, if the versions are. -/
theorem answers {lim : Nat} {r : PyStr} {o : Operator} {x z : VSet} (hr : Specifier.parse r = .ok (.one o)) (hx : VSet.parse lim r = .ok x)
    (nz : z.Normal) (wz : z.Wf) (P : Version → Prop) (mz : ∀ v, z.contains v = true ↔ o.accepts v = .ok true ∧ P v) :
    (z.isEmpty = true ↔ ∀ v : Version, v.Wf → o.accepts v = .ok true → ¬ P v) ∧
    (z.eq x = true ↔ ∀ v : Version, v.Wf → o.accepts v = .ok true → P v) := by
  obtain ⟨nx, wx⟩ := sets_of hx
  have mz' v : z.Mem v ↔ o.accepts v = .ok true ∧ P v := by rw [← mz, vset_contains_iff_mem]
  refine ⟨(C55_sets z nz wz).1.trans ?_, (C28_eq_iff_same_versions z x nz nx wz wx).trans ?_⟩
  · simp only [mz', not_and]
  · simp only [mz', ← Windows.set_mem hr hx, and_iff_left_iff_imp]

theorem result_wf {x y z : VSet} (wx : x.Wf) (wy : y.Wf) (h : x.intersection 0 y = .ok z ∨ x.difference 0 y = .ok z) : z.Wf := by
  have hw := C48_ends_from_operands Version.Wf x y z 0 (Windows.ends_wf wx) (Windows.ends_wf wy)
    (h.elim .inl fun h => .inr (.inr (.inl h)))
  cases z with
  | empty => trivial
  | item t => exact hw t rfl
  | union l => exact hw

end BoundPairs

/-- C143. `intersection` of the sets of two comparisons. -/
theorem C143_common (lim : Nat) (r q : PyStr) (t u : OpType) (ht : t.IsComparison) (hu : u.IsComparison) (a b : Version) (x y : VSet)
    (hr : Specifier.parse r = .ok (.one ⟨t, a⟩)) (hq : Specifier.parse q = .ok (.one ⟨u, b⟩)) (hx : VSet.parse lim r = .ok x)
    (hy : VSet.parse lim q = .ok y) :
    ∃ z, (∀ k, x.intersection k y = .ok z) ∧ (z.isEmpty = true ↔ ¬ BoundMeets t a u b) ∧ (z.eq x = true ↔ BoundImplies t a u b) := by
  have wa : a.Wf := (Windows.read_canonical hr).wf
  have wb : b.Wf := (Windows.read_canonical hq).wf
  obtain ⟨nx, wx⟩ := BoundPairs.sets_of hx
  obtain ⟨ny, wy⟩ := BoundPairs.sets_of hy
  obtain ⟨z, hz, mz⟩ := C20_intersection_exact x y nx ny
  obtain ⟨h1, h2⟩ := BoundPairs.answers hr hx (C19_normal_closed x y z nx ny 0 (.inl (hz 0))) (BoundPairs.result_wf wx wy (.inl (hz 0)))
    (fun v => (Operator.mk u b).accepts v = .ok true) fun v => by rw [mz, Windows.set_mem hr hx, Windows.set_mem hq hy]
  refine ⟨z, hz, h1.trans ?_, h2.trans (C140_implies u t hu ht b a wb wa)⟩
  rw [← C140_meets t u ht hu a b wa wb]
  simp only [not_exists, not_and]

/-- The sets of `>1.2` and `<=1.2.0` have nothing in common; that of `<1.2` and `!=1.2` is that of `<1.2`. -/
example (x y z w : VSet) (hx : VSet.parse 5 ">1.2".toList = .ok x) (hy : VSet.parse 5 "<=1.2.0".toList = .ok y)
    (hz : VSet.parse 5 "<1.2".toList = .ok z) (hw : VSet.parse 5 "!=1.2".toList = .ok w) :
    (∃ s, x.intersection 9 y = .ok s ∧ s.isEmpty = true) ∧ ∃ s, z.intersection 9 w = .ok s ∧ s.eq z = true := by
  obtain ⟨s, hs, h, -⟩ := C143_common 5 _ _ .greater .lessOrEqual (by simp [OpType.IsComparison]) (by simp [OpType.IsComparison]) (exVersion [1, 2])
    (exVersion [1, 2, 0]) x y (by rfl) (by rfl) hx hy
  obtain ⟨s', hs', -, h'⟩ := C143_common 5 _ _ .less .notEqual (by simp [OpType.IsComparison]) (by simp [OpType.IsComparison]) (exVersion [1, 2])
    (exVersion [1, 2]) z w (by rfl) (by rfl) hz hw
  exact ⟨⟨s, hs 9, h.2 (show ¬ exVersion [1, 2] <ₚ exVersion [1, 2, 0] by decide +kernel)⟩, s', hs' 9,
    h'.2 (show exVersion [1, 2] ≤ₚ exVersion [1, 2] by decide +kernel)⟩

/-- C143. `difference` of the sets of two comparisons is exact, except for a bound that implies the `!=` it is taken without: then it
is the bound itself, where nothing should be left. -/
theorem C143_left (lim : Nat) (r q : PyStr) (t u : OpType) (ht : t.IsComparison) (hu : u.IsComparison) (a b : Version) (x y : VSet)
    (hr : Specifier.parse r = .ok (.one ⟨t, a⟩)) (hq : Specifier.parse q = .ok (.one ⟨u, b⟩)) (hx : VSet.parse lim r = .ok x)
    (hy : VSet.parse lim q = .ok y) :
    (t.IsBound ∧ u = .notEqual ∧ BoundImplies t a u b → ∀ k, x.difference k y = .ok x) ∧
    (¬ (t.IsBound ∧ u = .notEqual ∧ BoundImplies t a u b) → ∃ z, (∀ k, x.difference k y = .ok z) ∧
      (∀ v, z.contains v = true ↔ (Operator.mk t a).accepts v = .ok true ∧ ¬ (Operator.mk u b).accepts v = .ok true) ∧
      (z.isEmpty = true ↔ BoundImplies t a u b) ∧ (z.eq x = true ↔ ¬ BoundMeets t a u b)) := by
  have wa : a.Wf := (Windows.read_canonical hr).wf
  have wb : b.Wf := (Windows.read_canonical hq).wf
  obtain ⟨nx, wx⟩ := BoundPairs.sets_of hx
  obtain ⟨ny, wy⟩ := BoundPairs.sets_of hy
  have sx := BoundPairs.shapes ht (BoundPairs.set_of hr hx)
  have sy := BoundPairs.shapes hu (BoundPairs.set_of hq hy)
  constructor
  · rintro ⟨h1, rfl, h2⟩ k
    obtain rfl : y = .union [.range ⟨none, some b, false, false⟩, .range ⟨some b, none, false, false⟩] := by simpa using sy
    simp only [OpType.IsBound, List.mem_cons, List.not_mem_nil, or_false] at h1
    rcases h1 with rfl | rfl | rfl | rfl
    · obtain rfl : x = .item (.range ⟨none, some a, false, false⟩) := by simpa using sx
      refine C23_covered_range _ _ nx ny wx wy _ (List.mem_cons_self ..) (fun v _ hv => ?_) k
      simp only [BoundImplies, Item.Mem, AboveMin, BelowMax, vlt_iff, vle_iff, veq_iff] at h2 hv ⊢
      grind
    · obtain rfl : x = .item (.range ⟨none, some a, false, true⟩) := by simpa using sx
      refine C23_covered_range _ _ nx ny wx wy _ (List.mem_cons_self ..) (fun v _ hv => ?_) k
      simp only [BoundImplies, Item.Mem, AboveMin, BelowMax, vlt_iff, veq_iff] at h2 hv ⊢
      grind
    · obtain rfl : x = .item (.range ⟨some a, none, false, false⟩) := by simpa using sx
      refine C23_covered_range _ _ nx ny wx wy _ (List.mem_cons_of_mem _ (List.mem_cons_self ..)) (fun v _ hv => ?_) k
      simp only [BoundImplies, Item.Mem, AboveMin, BelowMax, vlt_iff, vle_iff, veq_iff] at h2 hv ⊢
      grind
    · obtain rfl : x = .item (.range ⟨some a, none, true, false⟩) := by simpa using sx
      refine C23_covered_range _ _ nx ny wx wy _ (List.mem_cons_of_mem _ (List.mem_cons_self ..)) (fun v _ hv => ?_) k
      simp only [BoundImplies, Item.Mem, AboveMin, BelowMax, vlt_iff, veq_iff] at h2 hv ⊢
      grind
  · intro h
    obtain ⟨z, hz, mz⟩ := C23_difference_exact x y nx ny
      (by
        rintro items ⟨-, rfl⟩
        simp at sy)
      (by
        rintro s items rfl rfl j hj c
        refine h ⟨?_, by simp at sy; exact sy.1, (C140_implies u t hu ht b a wb wa).1 fun v _ e => ?_⟩
        · simp at sx
          simp only [OpType.IsBound, List.mem_cons, List.not_mem_nil, or_false]
          grind
        · rw [Windows.set_mem hq hy]
          exact ⟨j, hj, c v ((Windows.set_mem hr hx v).1 e)⟩)
    have mz' v : z.contains v = true ↔ (Operator.mk t a).accepts v = .ok true ∧ ¬ (Operator.mk u b).accepts v = .ok true := by
      rw [mz, Windows.set_mem hr hx, Windows.set_mem hq hy]
    obtain ⟨h1, h2⟩ := BoundPairs.answers hr hx (C19_normal_closed x y z nx ny 0 (.inr (.inr (.inl (hz 0)))))
      (BoundPairs.result_wf wx wy (.inr (hz 0))) _ mz'
    refine ⟨z, hz, mz', h1.trans ?_, h2.trans ?_⟩
    · rw [← C140_implies u t hu ht b a wb wa]
      simp only [not_not]
    · rw [← C140_meets t u ht hu a b wa wb]
      simp only [not_exists, not_and]

/-- Of `>=1.2` without `>1.2` something is left; `<1.2` without `!=1.2` is given back as it is. -/
example (x y z w : VSet) (hx : VSet.parse 5 ">=1.2".toList = .ok x) (hy : VSet.parse 5 ">1.2".toList = .ok y)
    (hz : VSet.parse 5 "<1.2".toList = .ok z) (hw : VSet.parse 5 "!=1.2".toList = .ok w) :
    (∃ s, x.difference 9 y = .ok s ∧ s.isEmpty ≠ true) ∧ z.difference 9 w = .ok z := by
  obtain ⟨-, h⟩ := C143_left 5 _ _ .greaterOrEqual .greater (by simp [OpType.IsComparison]) (by simp [OpType.IsComparison]) (exVersion [1, 2])
    (exVersion [1, 2]) x y (by rfl) (by rfl) hx hy
  obtain ⟨h', -⟩ := C143_left 5 _ _ .less .notEqual (by simp [OpType.IsComparison]) (by simp [OpType.IsComparison]) (exVersion [1, 2])
    (exVersion [1, 2]) z w (by rfl) (by rfl) hz hw
  obtain ⟨s, hs, -, e, -⟩ := h (by rintro ⟨-, c, -⟩; cases c)
  exact ⟨⟨s, hs 9, fun c => absurd (show exVersion [1, 2] <ₚ exVersion [1, 2] from e.1 c) (by decide +kernel)⟩,
    h' ⟨by simp [OpType.IsBound], rfl, show exVersion [1, 2] ≤ₚ exVersion [1, 2] by decide +kernel⟩ 9⟩

end Verif
