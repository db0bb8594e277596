import Verif.Props.CoveringBounds
/-!
# C142: which comparisons are opposite, and which are the same
-/

namespace Verif

/-- What `t` accepts is what `u` with the same version rejects. -/
def OpType.Opposite (t u : OpType) : Prop :=
  (t, u) ∈ [(OpType.doubleEqual, OpType.notEqual), (.equal, .notEqual), (.notEqual, .doubleEqual), (.notEqual, .equal), (.less, .greaterOrEqual),
    (.greaterOrEqual, .less), (.lessOrEqual, .greater), (.greater, .lessOrEqual)]

/-- The same comparison; `=` is another spelling of `==`. -/
def OpType.SameComparison (t u : OpType) : Prop := t = u ∨ (t, u) ∈ [(OpType.doubleEqual, OpType.equal), (.equal, .doubleEqual)]

/-- C142. One comparison accepts exactly what another rejects only if they are opposite, on equal versions. -/
theorem C142_opposite (t u : OpType) (ht : t.IsComparison) (hu : u.IsComparison) (a b : Version) (ha : a.Wf) (hb : b.Wf) :
    (∀ x : Version, x.Wf → ((Operator.mk u b).accepts x = .ok true ↔ ¬ (Operator.mk t a).accepts x = .ok true)) ↔ t.Opposite u ∧ a ==ₚ b := by
  obtain ⟨lo, hi, m, wl, wh, wm, h1, h2, h3, h4⟩ := BoundPairs.witnesses ha hb
  have n1 := h1.1.ne
  have n2 := h1.2.ne
  have n3 := h2.1.ne'
  have n4 := h2.2.ne'
  simp only [OpType.IsComparison, List.mem_cons, List.not_mem_nil, or_false] at ht hu
  constructor
  · intro h
    have ea := h a ha
    have eb := h b hb
    have el := h lo wl
    have eh := h hi wh
    have em := h m wm
    clear h
    rcases ht with rfl | rfl | rfl | rfl | rfl | rfl | rfl <;> rcases hu with rfl | rfl | rfl | rfl | rfl | rfl | rfl <;>
      simp only [BoundPairs.accepts_iff] at ea eb el eh em <;> simp [OpType.Opposite, veq_iff] <;> grind
  · rintro ⟨h, e⟩ x _
    rw [veq_iff] at e
    rcases ht with rfl | rfl | rfl | rfl | rfl | rfl | rfl <;> rcases hu with rfl | rfl | rfl | rfl | rfl | rfl | rfl <;>
      simp [OpType.Opposite] at h <;> simp only [BoundPairs.accepts_iff] <;> grind

/-- `>=1.2.0` is the opposite of `<1.2`, and `>1.2` is not. -/
example : (∀ x : Version, x.Wf → ((Operator.mk .greaterOrEqual (exVersion [1, 2, 0])).accepts x = .ok true ↔
      ¬ (Operator.mk .less (exVersion [1, 2])).accepts x = .ok true)) ∧
    ¬ ∀ x : Version, x.Wf → ((Operator.mk .greater (exVersion [1, 2])).accepts x = .ok true ↔
      ¬ (Operator.mk .less (exVersion [1, 2])).accepts x = .ok true) :=
  ⟨(C142_opposite .less .greaterOrEqual (by simp [OpType.IsComparison]) (by simp [OpType.IsComparison]) _ _ (by decide +kernel) (by decide +kernel)).2
    ⟨by simp [OpType.Opposite], by decide +kernel⟩,
  fun c => absurd ((C142_opposite .less .greater (by simp [OpType.IsComparison]) (by simp [OpType.IsComparison]) _ _ (by decide +kernel)
    (by decide +kernel)).1 c).1 (by simp [OpType.Opposite])⟩

/-- C142. Two comparisons accept the same versions only if they are the same, on equal versions. -/
theorem C142_same (t u : OpType) (ht : t.IsComparison) (hu : u.IsComparison) (a b : Version) (ha : a.Wf) (hb : b.Wf) :
    (∀ x : Version, x.Wf → ((Operator.mk t a).accepts x = .ok true ↔ (Operator.mk u b).accepts x = .ok true)) ↔ t.SameComparison u ∧ a ==ₚ b := by
  obtain ⟨lo, hi, m, wl, wh, wm, h1, h2, h3, h4⟩ := BoundPairs.witnesses ha hb
  have n1 := h1.1.ne
  have n2 := h1.2.ne
  have n3 := h2.1.ne'
  have n4 := h2.2.ne'
  simp only [OpType.IsComparison, List.mem_cons, List.not_mem_nil, or_false] at ht hu
  constructor
  · intro h
    have ea := h a ha
    have eb := h b hb
    have el := h lo wl
    have eh := h hi wh
    have em := h m wm
    clear h
    rcases ht with rfl | rfl | rfl | rfl | rfl | rfl | rfl <;> rcases hu with rfl | rfl | rfl | rfl | rfl | rfl | rfl <;>
      simp only [BoundPairs.accepts_iff] at ea eb el eh em <;> simp [OpType.SameComparison, veq_iff] <;> grind
  · rintro ⟨h, e⟩ x _
    rw [veq_iff] at e
    rcases ht with rfl | rfl | rfl | rfl | rfl | rfl | rfl <;> rcases hu with rfl | rfl | rfl | rfl | rfl | rfl | rfl <;>
      simp [OpType.SameComparison] at h <;> simp only [BoundPairs.accepts_iff] <;> grind

/-- `=1.2` and `==1.2.0` are the same; `>=1.2` and `>1.2` are not. -/
example : (∀ x : Version, x.Wf → ((Operator.mk .equal (exVersion [1, 2])).accepts x = .ok true ↔
      (Operator.mk .doubleEqual (exVersion [1, 2, 0])).accepts x = .ok true)) ∧
    ¬ ∀ x : Version, x.Wf → ((Operator.mk .greaterOrEqual (exVersion [1, 2])).accepts x = .ok true ↔
      (Operator.mk .greater (exVersion [1, 2])).accepts x = .ok true) :=
  ⟨(C142_same .equal .doubleEqual (by simp [OpType.IsComparison]) (by simp [OpType.IsComparison]) _ _ (by decide +kernel) (by decide +kernel)).2
    ⟨by simp [OpType.SameComparison], by decide +kernel⟩,
  fun c => absurd ((C142_same .greaterOrEqual .greater (by simp [OpType.IsComparison]) (by simp [OpType.IsComparison]) _ _ (by decide +kernel)
    (by decide +kernel)).1 c).1 (by simp [OpType.SameComparison])⟩

/-- C142. The sets of two comparison strings are equal only if the comparisons are the same on equal versions; `complement` of the one
always returns, and equals the other only if they are opposite on equal versions. -/
theorem C142_sets (lim : Nat) (r q : PyStr) (t u : OpType) (ht : t.IsComparison) (hu : u.IsComparison) (a b : Version) (x y : VSet)
    (hr : Specifier.parse r = .ok (.one ⟨t, a⟩)) (hq : Specifier.parse q = .ok (.one ⟨u, b⟩)) (hx : VSet.parse lim r = .ok x)
    (hy : VSet.parse lim q = .ok y) :
    (x.eq y = true ↔ t.SameComparison u ∧ a ==ₚ b) ∧
    ∃ z, (∀ k, x.complement k = .ok z) ∧ (z.eq y = true ↔ t.Opposite u ∧ a ==ₚ b) := by
  have wa : a.Wf := (Windows.read_canonical hr).wf
  have wb : b.Wf := (Windows.read_canonical hq).wf
  obtain ⟨nx, cx⟩ := C67_parsed lim r x hx
  obtain ⟨ny, cy⟩ := C67_parsed lim q y hy
  have wx := VSet.Canonical.wf cx
  have wy := VSet.Canonical.wf cy
  rw [← C142_same t u ht hu a b wa wb, ← C142_opposite t u ht hu a b wa wb]
  simp only [Windows.set_mem hr hx, Windows.set_mem hq hy]
  refine ⟨C28_eq_iff_same_versions x y nx ny wx wy, ?_⟩
  obtain ⟨z, hz, mz⟩ := C24_complement_exact x nx
  have nz : z.Normal := C19_normal_closed x y z nx ny 0 (.inr (.inr (.inr (.inl (hz 0)))))
  have wz : z.Wf := by
    have hw := C48_ends_from_operands Version.Wf x y z 0 (Windows.ends_wf wx) (Windows.ends_wf wy) (.inr (.inr (.inr (.inl (hz 0)))))
    cases z with
    | empty => trivial
    | item t => exact hw t rfl
    | union l => exact hw
  refine ⟨z, hz, (C28_eq_iff_same_versions z y nz ny wz wy).trans (forall₂_congr fun v _ => ?_)⟩
  rw [← vset_contains_iff_mem, mz]
  exact ⟨Iff.symm, Iff.symm⟩

/-- The complement of the set of `!=1.2` is that of `==1.2.0`; the complement of the set of `>=1.2` is not that of `<=1.2`. -/
example (x y z w : VSet) (hx : VSet.parse 5 "!=1.2".toList = .ok x) (hy : VSet.parse 5 "==1.2.0".toList = .ok y)
    (hz : VSet.parse 5 ">=1.2".toList = .ok z) (hw : VSet.parse 5 "<=1.2".toList = .ok w) :
    (∃ s, x.complement 9 = .ok s ∧ s.eq y = true) ∧ ∃ s, z.complement 9 = .ok s ∧ s.eq w ≠ true := by
  obtain ⟨-, s, hs, h⟩ := C142_sets 5 _ _ .notEqual .doubleEqual (by simp [OpType.IsComparison]) (by simp [OpType.IsComparison]) (exVersion [1, 2])
    (exVersion [1, 2, 0]) x y (by rfl) (by rfl) hx hy
  obtain ⟨-, s', hs', h'⟩ := C142_sets 5 _ _ .greaterOrEqual .lessOrEqual (by simp [OpType.IsComparison]) (by simp [OpType.IsComparison])
    (exVersion [1, 2]) (exVersion [1, 2]) z w (by rfl) (by rfl) hz hw
  exact ⟨⟨s, hs 9, h.2 ⟨by simp [OpType.Opposite], by decide +kernel⟩⟩, s', hs' 9, fun c => absurd (h'.1 c).1 (by simp [OpType.Opposite])⟩

end Verif
