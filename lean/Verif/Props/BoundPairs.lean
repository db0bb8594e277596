import Verif.Props.WindowBounds
/-!
# C140: which comparisons imply and meet which
-/

namespace Verif

/-- `==`, `=`, `!=`, `<`, `<=`, `>`, `>=`. -/
def OpType.IsComparison (t : OpType) : Prop := t ∈ [OpType.doubleEqual, .equal, .notEqual, .less, .lessOrEqual, .greater, .greaterOrEqual]

/-- The comparison `u` with `b` implies the comparison `t` with `a`. -/
def BoundImplies (u : OpType) (b : Version) (t : OpType) (a : Version) : Prop :=
  match t, u with
  | .greaterOrEqual, .greaterOrEqual | .greaterOrEqual, .greater | .greater, .greater => a ≤ₚ b
  | .greaterOrEqual, .doubleEqual | .greaterOrEqual, .equal => a ≤ₚ b
  | .greater, .greaterOrEqual | .greater, .doubleEqual | .greater, .equal => a <ₚ b
  | .lessOrEqual, .lessOrEqual | .lessOrEqual, .less | .less, .less => b ≤ₚ a
  | .lessOrEqual, .doubleEqual | .lessOrEqual, .equal => b ≤ₚ a
  | .less, .lessOrEqual | .less, .doubleEqual | .less, .equal => b <ₚ a
  | .doubleEqual, .doubleEqual | .doubleEqual, .equal | .equal, .doubleEqual | .equal, .equal | .notEqual, .notEqual => a ==ₚ b
  | .notEqual, .doubleEqual | .notEqual, .equal => ¬ a ==ₚ b
  | .notEqual, .greaterOrEqual => a <ₚ b
  | .notEqual, .greater => a ≤ₚ b
  | .notEqual, .lessOrEqual => b <ₚ a
  | .notEqual, .less => b ≤ₚ a
  | _, _ => False

/-- The comparisons `t` with `a` and `u` with `b` can be met together. -/
def BoundMeets (t : OpType) (a : Version) (u : OpType) (b : Version) : Prop :=
  match t, u with
  | .greaterOrEqual, .lessOrEqual => a ≤ₚ b
  | .greaterOrEqual, .less | .greater, .less | .greater, .lessOrEqual => a <ₚ b
  | .lessOrEqual, .greaterOrEqual => b ≤ₚ a
  | .less, .greaterOrEqual | .less, .greater | .lessOrEqual, .greater => b <ₚ a
  | .doubleEqual, .doubleEqual | .doubleEqual, .equal | .equal, .doubleEqual | .equal, .equal => a ==ₚ b
  | .doubleEqual, .notEqual | .equal, .notEqual | .notEqual, .doubleEqual | .notEqual, .equal => ¬ a ==ₚ b
  | .doubleEqual, .greaterOrEqual | .equal, .greaterOrEqual | .lessOrEqual, .doubleEqual | .lessOrEqual, .equal => b ≤ₚ a
  | .doubleEqual, .greater | .equal, .greater | .less, .doubleEqual | .less, .equal => b <ₚ a
  | .doubleEqual, .lessOrEqual | .equal, .lessOrEqual | .greaterOrEqual, .doubleEqual | .greaterOrEqual, .equal => a ≤ₚ b
  | .doubleEqual, .less | .equal, .less | .greater, .doubleEqual | .greater, .equal => a <ₚ b
  | _, _ => True

namespace BoundPairs

/-- Versions below, above and between two versions. -/
theorem witnesses {a b : Version} (ha : a.Wf) (hb : b.Wf) : ∃ lo hi m : Version, lo.Wf ∧ hi.Wf ∧ m.Wf ∧ (lo.key < a.key ∧ lo.key < b.key) ∧
    (a.key < hi.key ∧ b.key < hi.key) ∧ (a.key < b.key → a.key < m.key ∧ m.key < b.key) ∧ (b.key < a.key → b.key < m.key ∧ m.key < a.key) := by
  obtain ⟨x, y, x1, y1, x2, y2⟩ := exists_version_beyond ha
  obtain ⟨z, w, z1, w1, z2, w2⟩ := exists_version_beyond hb
  rcases lt_trichotomy a.key b.key with c | c | c
  · obtain ⟨m, m1, m2, m3⟩ := exists_version_between ha hb c
    exact ⟨x, w, m, x1, w1, m1, ⟨x2, x2.trans c⟩, ⟨c.trans w2, w2⟩, fun _ => ⟨m2, m3⟩, fun d => absurd d (not_lt_of_gt c)⟩
  · exact ⟨x, w, a, x1, w1, ha, ⟨x2, c ▸ x2⟩, ⟨c ▸ w2, w2⟩, fun d => absurd c d.ne, fun d => absurd c d.ne'⟩
  · obtain ⟨m, m1, m2, m3⟩ := exists_version_between hb ha c
    exact ⟨z, y, m, z1, y1, m1, ⟨z2.trans c, z2⟩, ⟨y2, c.trans y2⟩, fun d => absurd d (not_lt_of_gt c), fun _ => ⟨m2, m3⟩⟩

theorem accepts_iff (a x : Version) :
    ((Operator.mk .greaterOrEqual a).accepts x = .ok true ↔ a.key ≤ x.key) ∧ ((Operator.mk .greater a).accepts x = .ok true ↔ a.key < x.key) ∧
    ((Operator.mk .less a).accepts x = .ok true ↔ x.key < a.key) ∧ ((Operator.mk .lessOrEqual a).accepts x = .ok true ↔ x.key ≤ a.key) ∧
    ((Operator.mk .doubleEqual a).accepts x = .ok true ↔ x.key = a.key) ∧ ((Operator.mk .equal a).accepts x = .ok true ↔ x.key = a.key) ∧
    ((Operator.mk .notEqual a).accepts x = .ok true ↔ x.key ≠ a.key) := by
  refine ⟨Windows.ok_true.trans (vge_iff x a), Windows.ok_true.trans (vgt_iff x a), Windows.ok_true.trans (vlt_iff x a),
    Windows.ok_true.trans (vle_iff x a), Windows.ok_true.trans (veq_iff x a), Windows.ok_true.trans (veq_iff x a), Windows.ok_true.trans ?_⟩
  rw [Bool.not_eq_true', ← Bool.not_eq_true, veq_iff]

end BoundPairs

/-- C140. Which comparisons imply which. -/
theorem C140_implies (t u : OpType) (ht : t.IsComparison) (hu : u.IsComparison) (a b : Version) (ha : a.Wf) (hb : b.Wf) :
    (∀ x : Version, x.Wf → (Operator.mk u b).accepts x = .ok true → (Operator.mk t a).accepts x = .ok true) ↔ BoundImplies u b t a := by
  obtain ⟨lo, hi, m, wl, wh, wm, h1, h2, h3, h4⟩ := BoundPairs.witnesses ha hb
  have n1 := h1.1.ne
  have n2 := h1.2.ne
  have n3 := h2.1.ne'
  have n4 := h2.2.ne'
  simp only [OpType.IsComparison, List.mem_cons, List.not_mem_nil, or_false] at ht hu
  constructor
  · intro h
    have ea := h a ha
    have eb := h b hb
    have el := h lo wl
    have eh := h hi wh
    have em := h m wm
    clear h
    rcases ht with rfl | rfl | rfl | rfl | rfl | rfl | rfl <;> rcases hu with rfl | rfl | rfl | rfl | rfl | rfl | rfl <;>
      simp only [BoundPairs.accepts_iff, BoundImplies, vle_iff, vlt_iff, veq_iff] at ea eb el eh em ⊢ <;> grind
  · intro h x _
    rcases ht with rfl | rfl | rfl | rfl | rfl | rfl | rfl <;> rcases hu with rfl | rfl | rfl | rfl | rfl | rfl | rfl <;>
      simp only [BoundPairs.accepts_iff, BoundImplies, vle_iff, vlt_iff, veq_iff] at h ⊢ <;> grind

/-- Whoever asks for more than 1.2 asks for at least 1.2, and not the other way round. -/
example : (∀ x : Version, x.Wf → (Operator.mk .greater (exVersion [1, 2])).accepts x = .ok true →
      (Operator.mk .greaterOrEqual (exVersion [1, 2, 0])).accepts x = .ok true) ∧
    ¬ ∀ x : Version, x.Wf → (Operator.mk .greaterOrEqual (exVersion [1, 2])).accepts x = .ok true →
      (Operator.mk .greater (exVersion [1, 2, 0])).accepts x = .ok true :=
  ⟨(C140_implies .greaterOrEqual .greater (by simp [OpType.IsComparison]) (by simp [OpType.IsComparison]) _ _ (by decide +kernel) (by decide +kernel)).2
    (show exVersion [1, 2, 0] ≤ₚ exVersion [1, 2] by decide +kernel),
  fun c => absurd (show exVersion [1, 2, 0] <ₚ exVersion [1, 2] from
    (C140_implies .greater .greaterOrEqual (by simp [OpType.IsComparison]) (by simp [OpType.IsComparison]) _ _ (by decide +kernel) (by decide +kernel)).1 c)
    (by decide +kernel)⟩

/-- C140. Which comparisons can be met together. -/
theorem C140_meets (t u : OpType) (ht : t.IsComparison) (hu : u.IsComparison) (a b : Version) (ha : a.Wf) (hb : b.Wf) :
    (∃ x : Version, x.Wf ∧ (Operator.mk t a).accepts x = .ok true ∧ (Operator.mk u b).accepts x = .ok true) ↔ BoundMeets t a u b := by
  obtain ⟨lo, hi, m, wl, wh, wm, h1, h2, h3, h4⟩ := BoundPairs.witnesses ha hb
  have n1 := h1.1.ne
  have n2 := h1.2.ne
  have n3 := h2.1.ne'
  have n4 := h2.2.ne'
  simp only [OpType.IsComparison, List.mem_cons, List.not_mem_nil, or_false] at ht hu
  constructor
  · rintro ⟨x, -, e, f⟩
    rcases ht with rfl | rfl | rfl | rfl | rfl | rfl | rfl <;> rcases hu with rfl | rfl | rfl | rfl | rfl | rfl | rfl <;>
      simp only [BoundPairs.accepts_iff, BoundMeets, vle_iff, vlt_iff, veq_iff] at e f ⊢ <;> grind
  · intro h
    by_contra c
    have c' (x : Version) (w : x.Wf) : ¬ ((Operator.mk t a).accepts x = .ok true ∧ (Operator.mk u b).accepts x = .ok true) := fun e => c ⟨x, w, e⟩
    have ea := c' a ha
    have eb := c' b hb
    have el := c' lo wl
    have eh := c' hi wh
    have em := c' m wm
    clear c c'
    rcases ht with rfl | rfl | rfl | rfl | rfl | rfl | rfl <;> rcases hu with rfl | rfl | rfl | rfl | rfl | rfl | rfl <;>
      simp only [BoundPairs.accepts_iff, BoundMeets, vle_iff, vlt_iff, veq_iff] at h ea eb el eh em <;> grind

/-- There are versions above 1.2 and below 1.2.0.1, but none above 1.2 and at most 1.2.0. -/
example : (∃ x : Version, x.Wf ∧ (Operator.mk .greater (exVersion [1, 2])).accepts x = .ok true ∧
      (Operator.mk .less (exVersion [1, 2, 0, 1])).accepts x = .ok true) ∧
    ¬ ∃ x : Version, x.Wf ∧ (Operator.mk .greater (exVersion [1, 2])).accepts x = .ok true ∧
      (Operator.mk .lessOrEqual (exVersion [1, 2, 0])).accepts x = .ok true :=
  ⟨(C140_meets .greater .less (by simp [OpType.IsComparison]) (by simp [OpType.IsComparison]) _ _ (by decide +kernel) (by decide +kernel)).2
    (show exVersion [1, 2] <ₚ exVersion [1, 2, 0, 1] by decide +kernel),
  fun c => absurd (show exVersion [1, 2] <ₚ exVersion [1, 2, 0] from
    (C140_meets .greater .lessOrEqual (by simp [OpType.IsComparison]) (by simp [OpType.IsComparison]) _ _ (by decide +kernel) (by decide +kernel)).1 c)
    (by decide +kernel)⟩

/-- C140. The sets of the strings answer likewise. -/
theorem C140_sets (lim : Nat) (r q : PyStr) (t u : OpType) (ht : t.IsComparison) (hu : u.IsComparison) (a b : Version) (x y : VSet)
    (hr : Specifier.parse r = .ok (.one ⟨t, a⟩)) (hq : Specifier.parse q = .ok (.one ⟨u, b⟩)) (hx : VSet.parse lim r = .ok x)
    (hy : VSet.parse lim q = .ok y) : (x.includes y = true ↔ BoundImplies u b t a) ∧ (x.intersects y = true ↔ BoundMeets t a u b) := by
  have wa : a.Wf := (Windows.read_canonical hr).wf
  have wb : b.Wf := (Windows.read_canonical hq).wf
  obtain ⟨nx, cx⟩ := C67_parsed lim r x hx
  obtain ⟨ny, cy⟩ := C67_parsed lim q y hy
  have wx := VSet.Canonical.wf cx
  have wy := VSet.Canonical.wf cy
  rw [← C140_implies t u ht hu a b wa wb, ← C140_meets t u ht hu a b wa wb]
  simp only [Windows.set_mem hr hx, Windows.set_mem hq hy]
  exact ⟨⟨fun h v _ => (C26_includes x y nx ny).1 h v, (C26_includes x y nx ny).2 wx wy⟩, C27_intersects_iff_common x y nx ny wx wy⟩

/-- The set of `!=1.2` includes that of `>1.2`, and does not intersect that of `==1.2.0`. -/
example (x y z : VSet) (hx : VSet.parse 5 "!=1.2".toList = .ok x) (hy : VSet.parse 5 ">1.2".toList = .ok y) (hz : VSet.parse 5 "==1.2.0".toList = .ok z) :
    x.includes y = true ∧ x.intersects z ≠ true :=
  ⟨(C140_sets 5 _ _ .notEqual .greater (by simp [OpType.IsComparison]) (by simp [OpType.IsComparison]) (exVersion [1, 2]) (exVersion [1, 2]) x y
    (by rfl) (by rfl) hx hy).1.2 (show exVersion [1, 2] ≤ₚ exVersion [1, 2] by decide +kernel),
  fun c => absurd (show exVersion [1, 2] ==ₚ exVersion [1, 2, 0] by decide +kernel) ((C140_sets 5 _ _ .notEqual .doubleEqual (by simp [OpType.IsComparison])
    (by simp [OpType.IsComparison]) (exVersion [1, 2]) (exVersion [1, 2, 0]) x z (by rfl) (by rfl) hx hz).2.1 c)⟩

end Verif
