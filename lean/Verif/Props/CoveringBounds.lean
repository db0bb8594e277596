import Verif.Props.BoundPairs
import Verif.Props.JoinedWindows
import Verif.Props.SetPredicates
import Verif.Props.SetTexts
/-!
# C141: which comparisons as alternatives leave nothing out
-/

namespace Verif

/-- Every version satisfies the comparison `t` with `a` or the comparison `u` with `b`. -/
def BoundCovers (t : OpType) (a : Version) (u : OpType) (b : Version) : Prop :=
  match t, u with
  | .greaterOrEqual, .lessOrEqual | .greaterOrEqual, .less | .greater, .lessOrEqual => a ≤ₚ b
  | .greater, .less => a <ₚ b
  | .lessOrEqual, .greaterOrEqual | .less, .greaterOrEqual | .lessOrEqual, .greater => b ≤ₚ a
  | .less, .greater => b <ₚ a
  | .notEqual, .doubleEqual | .notEqual, .equal | .doubleEqual, .notEqual | .equal, .notEqual => a ==ₚ b
  | .notEqual, .notEqual => ¬ a ==ₚ b
  | .notEqual, .greaterOrEqual | .lessOrEqual, .notEqual => b ≤ₚ a
  | .notEqual, .greater | .less, .notEqual => b <ₚ a
  | .notEqual, .lessOrEqual | .greaterOrEqual, .notEqual => a ≤ₚ b
  | .notEqual, .less | .greater, .notEqual => a <ₚ b
  | _, _ => False

/-- C141. Which comparisons as alternatives leave no version out. -/
theorem C141_covers (t u : OpType) (ht : t.IsComparison) (hu : u.IsComparison) (a b : Version) (ha : a.Wf) (hb : b.Wf) :
    (∀ x : Version, x.Wf → (Operator.mk t a).accepts x = .ok true ∨ (Operator.mk u b).accepts x = .ok true) ↔ BoundCovers t a u b := by
  obtain ⟨lo, hi, m, wl, wh, wm, h1, h2, h3, h4⟩ := BoundPairs.witnesses ha hb
  have n1 := h1.1.ne
  have n2 := h1.2.ne
  have n3 := h2.1.ne'
  have n4 := h2.2.ne'
  simp only [OpType.IsComparison, List.mem_cons, List.not_mem_nil, or_false] at ht hu
  constructor
  · intro h
    have ea := h a ha
    have eb := h b hb
    have el := h lo wl
    have eh := h hi wh
    have em := h m wm
    clear h
    rcases ht with rfl | rfl | rfl | rfl | rfl | rfl | rfl <;> rcases hu with rfl | rfl | rfl | rfl | rfl | rfl | rfl <;>
      simp only [BoundPairs.accepts_iff, BoundCovers, vle_iff, vlt_iff, veq_iff] at ea eb el eh em ⊢ <;> grind
  · intro h x _
    rcases ht with rfl | rfl | rfl | rfl | rfl | rfl | rfl <;> rcases hu with rfl | rfl | rfl | rfl | rfl | rfl | rfl <;>
      simp only [BoundPairs.accepts_iff, BoundCovers, vle_iff, vlt_iff, veq_iff] at h ⊢ <;> grind

/-- At most 1.2 or above 1.2.0 is every version; below 1.2 or above 1.2.0 leaves 1.2 out. -/
example : (∀ x : Version, x.Wf → (Operator.mk .lessOrEqual (exVersion [1, 2])).accepts x = .ok true ∨
      (Operator.mk .greater (exVersion [1, 2, 0])).accepts x = .ok true) ∧
    ¬ ∀ x : Version, x.Wf → (Operator.mk .less (exVersion [1, 2])).accepts x = .ok true ∨
      (Operator.mk .greater (exVersion [1, 2, 0])).accepts x = .ok true :=
  ⟨(C141_covers .lessOrEqual .greater (by simp [OpType.IsComparison]) (by simp [OpType.IsComparison]) _ _ (by decide +kernel) (by decide +kernel)).2
    (show exVersion [1, 2, 0] ≤ₚ exVersion [1, 2] by decide +kernel),
  fun c => absurd (show exVersion [1, 2, 0] <ₚ exVersion [1, 2] from
    (C141_covers .less .greater (by simp [OpType.IsComparison]) (by simp [OpType.IsComparison]) _ _ (by decide +kernel) (by decide +kernel)).1 c)
    (by decide +kernel)⟩

/-- C141. The union of the sets of the strings, when it returns, is universal by the same table. -/
theorem C141_sets (lim k : Nat) (r q : PyStr) (t u : OpType) (ht : t.IsComparison) (hu : u.IsComparison) (a b : Version) (x y z : VSet)
    (hr : Specifier.parse r = .ok (.one ⟨t, a⟩)) (hq : Specifier.parse q = .ok (.one ⟨u, b⟩)) (hx : VSet.parse lim r = .ok x)
    (hy : VSet.parse lim q = .ok y) (hz : x.unionWith k y = .ok z) :
    (z.isUniversal = true ↔ BoundCovers t a u b) ∧ z.isEmpty = false := by
  have wa : a.Wf := (Windows.read_canonical hr).wf
  have wb : b.Wf := (Windows.read_canonical hq).wf
  obtain ⟨nx, cx⟩ := C67_parsed lim r x hx
  obtain ⟨ny, cy⟩ := C67_parsed lim q y hy
  have wx := VSet.Canonical.wf cx
  have wy := VSet.Canonical.wf cy
  have nz : z.Normal := C19_normal_closed x y z nx ny k (.inr (.inl hz))
  have wz : z.Wf := by
    have hw := C48_ends_from_operands Version.Wf x y z k (Windows.ends_wf wx) (Windows.ends_wf wy) (.inr (.inl hz))
    cases z with
    | empty => trivial
    | item t => exact hw t rfl
    | union l => exact hw
  have mz w : z.Mem w ↔ (Operator.mk t a).accepts w = .ok true ∨ (Operator.mk u b).accepts w = .ok true := by
    rw [Windows.set_mem hr hx, Windows.set_mem hq hy, ← C21_union_exact x y z nx ny k hz, vset_contains_iff_mem]
  obtain ⟨he, hU⟩ := C55_sets z nz wz
  rw [← C141_covers t u ht hu a b wa wb]
  refine ⟨hU.trans (by simp only [mz]), Bool.eq_false_iff.2 fun c => ?_⟩
  obtain ⟨v, wv, h1, -⟩ := (C140_meets t t ht ht a a wa wa).2 (by
    simp only [OpType.IsComparison, List.mem_cons, List.not_mem_nil, or_false] at ht
    rcases ht with rfl | rfl | rfl | rfl | rfl | rfl | rfl <;> simp [BoundMeets, veq_iff])
  exact he.1 c v wv ((mz v).2 (.inl h1))

/-- The union of the sets of `!=1.2` and `<1.3` is universal, that of `>=1.2` and `<1.1` is not. -/
example (x y z w s t : VSet) (hx : VSet.parse 5 "!=1.2".toList = .ok x) (hy : VSet.parse 5 "<1.3".toList = .ok y) (hs : x.unionWith 9 y = .ok s)
    (hz : VSet.parse 5 ">=1.2".toList = .ok z) (hw : VSet.parse 5 "<1.1".toList = .ok w) (ht : z.unionWith 9 w = .ok t) :
    s.isUniversal = true ∧ t.isUniversal ≠ true :=
  ⟨(C141_sets 5 9 _ _ .notEqual .less (by simp [OpType.IsComparison]) (by simp [OpType.IsComparison]) (exVersion [1, 2]) (exVersion [1, 3]) x y s
    (by rfl) (by rfl) hx hy hs).1.2 (show exVersion [1, 2] <ₚ exVersion [1, 3] by decide +kernel),
  fun c => absurd (show exVersion [1, 2] ≤ₚ exVersion [1, 1] from (C141_sets 5 9 _ _ .greaterOrEqual .less (by simp [OpType.IsComparison])
    (by simp [OpType.IsComparison]) (exVersion [1, 2]) (exVersion [1, 1]) z w t (by rfl) (by rfl) hz hw ht).1.1 c) (by decide +kernel)⟩

example : ((VSet.parse 5 "!=1.2".toList).bind fun x => (VSet.parse 5 "<1.3".toList).bind fun y => (x.unionWith 9 y).bind fun z => z.toShortStr 5) =
    .ok "*".toList := by
  decide +kernel

namespace BoundPairs

/-- The sets of the comparisons. -/
theorem set_of {lim : Nat} {r : PyStr} {t : OpType} {a : Version} {x : VSet} (h : Specifier.parse r = .ok (.one ⟨t, a⟩))
    (hx : VSet.parse lim r = .ok x) : t.translate lim a = .ok x := by
  unfold VSet.parse at hx
  rw [h] at hx
  exact hx

theorem shapes {lim : Nat} {t : OpType} (ht : t.IsComparison) {a : Version} {x : VSet} (h : t.translate lim a = .ok x) :
    (t = .doubleEqual ∧ x = .item (.point a)) ∨ (t = .equal ∧ x = .item (.point a)) ∨
    (t = .notEqual ∧ x = .union [.range ⟨none, some a, false, false⟩, .range ⟨some a, none, false, false⟩]) ∨
    (t = .less ∧ x = .item (.range ⟨none, some a, false, false⟩)) ∨ (t = .lessOrEqual ∧ x = .item (.range ⟨none, some a, false, true⟩)) ∨
    (t = .greater ∧ x = .item (.range ⟨some a, none, false, false⟩)) ∨ (t = .greaterOrEqual ∧ x = .item (.range ⟨some a, none, true, false⟩)) := by
  simp only [OpType.IsComparison, List.mem_cons, List.not_mem_nil, or_false] at ht
  rcases ht with rfl | rfl | rfl | rfl | rfl | rfl | rfl
  · exact .inl ⟨rfl, (Except.ok.inj h).symm⟩
  · exact .inr (.inl ⟨rfl, (Except.ok.inj h).symm⟩)
  · refine .inr (.inr (.inl ⟨rfl, ?_⟩))
    exact (Except.ok.inj ((SetTexts.ne_set lim a).symm.trans h)).symm
  · exact .inr (.inr (.inr (.inl ⟨rfl, (Except.ok.inj h).symm⟩)))
  · exact .inr (.inr (.inr (.inr (.inl ⟨rfl, (Except.ok.inj h).symm⟩))))
  · exact .inr (.inr (.inr (.inr (.inr (.inl ⟨rfl, (Except.ok.inj h).symm⟩)))))
  · exact .inr (.inr (.inr (.inr (.inr (.inr ⟨rfl, (Except.ok.inj h).symm⟩)))))

end BoundPairs

/-- C141. The union of the sets of two comparisons recurses without end exactly for `==` followed by `>` with an equal version. -/
theorem C141_returns (lim : Nat) (r q : PyStr) (t u : OpType) (ht : t.IsComparison) (hu : u.IsComparison) (a b : Version) (x y : VSet)
    (hr : Specifier.parse r = .ok (.one ⟨t, a⟩)) (hq : Specifier.parse q = .ok (.one ⟨u, b⟩)) (hx : VSet.parse lim r = .ok x)
    (hy : VSet.parse lim q = .ok y) :
    ((t = .doubleEqual ∨ t = .equal) ∧ u = .greater ∧ a ==ₚ b → ∀ k, x.unionWith k y = .error .recursionError) ∧
    (¬ ((t = .doubleEqual ∨ t = .equal) ∧ u = .greater ∧ a ==ₚ b) → ∃ z, ∀ k, x.unionWith (k + 2) y = .ok z) := by
  obtain ⟨nx, -⟩ := C67_parsed lim r x hx
  obtain ⟨ny, -⟩ := C67_parsed lim q y hy
  have sx := BoundPairs.shapes ht (BoundPairs.set_of hr hx)
  have sy := BoundPairs.shapes hu (BoundPairs.set_of hq hy)
  constructor
  · rintro ⟨h1, rfl, h2⟩ k
    have ex : x = .item (.point a) := by rcases h1 with rfl | rfl <;> simpa using sx
    have ey : y = .item (.range ⟨some b, none, false, false⟩) := by simpa using sy
    subst ex ey
    refine C22_union_diverges _ _ nx ny ⟨a, ⟨some b, none, false, false⟩, .inl rfl, .inr rfl, ⟨b, rfl, ?_, rfl⟩, ?_⟩ ?_ k
    · exact (veq_iff _ _).2 ((veq_iff _ _).1 h2).symm
    · rintro s (hs | hs)
      · cases hs
      · cases hs
        refine ⟨?_, by rintro m ⟨⟩⟩
        simp only [Item.Mem, AboveMin, vlt_iff, veq_iff] at h2 ⊢
        simp [h2]
    · rintro ⟨⟨r, hr⟩, -⟩
      cases hr
  · intro h
    apply C22_union_returns x y nx ny
    by_cases hg : (t = .greater) ∧ (u = .doubleEqual ∨ u = .equal)
    · obtain ⟨rfl, hg⟩ := hg
      exact .inr ⟨⟨_, by simpa using sx⟩, ⟨b, by rcases hg with rfl | rfl <;> simpa using sy⟩⟩
    · refine .inl ?_
      rintro ⟨p, s, hp, hs, ⟨m, h1, h2, h3⟩, h4⟩
      have k4 (w : VRange) (hw : x.Has (.range w) ∨ y.Has (.range w)) (n : Version) (e : w.max = some n) : n.key ≠ p.key :=
        fun c => (h4 w hw).2 n e ((veq_iff _ _).2 c)
      rw [veq_iff] at h2 h
      clear h4 nx ny hx hy hr hq ht hu
      rcases sx with ⟨rfl, rfl⟩ | ⟨rfl, rfl⟩ | ⟨rfl, rfl⟩ | ⟨rfl, rfl⟩ | ⟨rfl, rfl⟩ | ⟨rfl, rfl⟩ | ⟨rfl, rfl⟩ <;>
      rcases sy with ⟨rfl, rfl⟩ | ⟨rfl, rfl⟩ | ⟨rfl, rfl⟩ | ⟨rfl, rfl⟩ | ⟨rfl, rfl⟩ | ⟨rfl, rfl⟩ | ⟨rfl, rfl⟩ <;>
      simp only [VSet.Has, List.mem_cons, List.not_mem_nil, or_false] at hp hs k4 <;> grind

/-- `==1.2|>1.2.0` cannot be joined as sets; the other order can. -/
example (x y : VSet) (hx : VSet.parse 5 "==1.2".toList = .ok x) (hy : VSet.parse 5 ">1.2.0".toList = .ok y) :
    (∀ k, x.unionWith k y = .error .recursionError) ∧ ∃ z, ∀ k, y.unionWith (k + 2) x = .ok z :=
  ⟨(C141_returns 5 _ _ .doubleEqual .greater (by simp [OpType.IsComparison]) (by simp [OpType.IsComparison]) (exVersion [1, 2]) (exVersion [1, 2, 0]) x y
    (by rfl) (by rfl) hx hy).1 ⟨.inl rfl, rfl, by decide +kernel⟩,
  (C141_returns 5 _ _ .greater .doubleEqual (by simp [OpType.IsComparison]) (by simp [OpType.IsComparison]) (exVersion [1, 2, 0]) (exVersion [1, 2]) y x
    (by rfl) (by rfl) hy hx).2 (by rintro ⟨h | h, -⟩ <;> cases h)⟩

end Verif
