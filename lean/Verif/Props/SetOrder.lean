import Verif.Proofs.Sizes
import Verif.Props.Sets
/-!
# Inclusion of sets as an order (C57), and the size of results (C58)
-/

namespace Verif
open scoped Verif

/-! ## C57 -/

/-- C57. `includes` is reflexive, transitive and antisymmetric up to `==`; everything includes the empty set and the
universal set includes everything. -/
theorem C57_order (a b c : VSet) (ha : a.Normal) (hb : b.Normal) (hc : c.Normal) :
    a.includes a = true ∧ (a.includes b = true → b.includes c = true → a.includes c = true) ∧
      (a.includes b = true → b.includes a = true → a.eq b = true) ∧ a.includes .empty = true ∧ VSet.universal.includes a = true := by
  rw [includes_iff_cov ha ha, includes_iff_cov ha hb, includes_iff_cov hb hc, includes_iff_cov ha hc, includes_iff_cov hb ha, eq_iff_cov ha hb,
    includes_iff_cov (b := .empty) ha trivial, includes_iff_cov (a := .universal) universal_normal ha]
  refine ⟨fun _ h => h, fun h1 h2 x h => h1 x (h2 x h), fun h1 h2 x => ⟨h2 x, h1 x⟩, fun x h => ?_, fun x h => (universal_cov x).2 (cov_lt_top h)⟩
  exact ((cov_nil x).1 h).elim

example : (VSet.item (exRange (some [1]) (some [4]))).includes (.item (exRange (some [2]) (some [3]))) = true ∧
    (VSet.item (exRange (some [2]) (some [3]))).includes (.union [exPoint [2], exPoint [2, 5]]) = true ∧
    (VSet.item (exRange (some [1]) (some [4]))).includes (.union [exPoint [2], exPoint [2, 5]]) = true := by decide +kernel

/-- C57. The intersection is the greatest set that both include. -/
theorem C57_intersection_glb (a b i : VSet) (ha : a.Normal) (hb : b.Normal) (lim : Nat) (h : a.intersection lim b = .ok i) :
    a.includes i = true ∧ b.includes i = true ∧ ∀ c : VSet, c.Normal → a.includes c = true → b.includes c = true → i.includes c = true := by
  obtain ⟨n1, e1⟩ := inter_ok ha hb h
  rw [includes_iff_cov ha n1, includes_iff_cov hb n1]
  refine ⟨fun x hx => ((e1 x).1 hx).1, fun x hx => ((e1 x).1 hx).2, fun c hc h1 h2 => ?_⟩
  rw [includes_iff_cov ha hc] at h1
  rw [includes_iff_cov hb hc] at h2
  rw [includes_iff_cov n1 hc]
  exact fun x hx => (e1 x).2 ⟨h1 x hx, h2 x hx⟩

example : (VSet.item (exRange (some [1]) (some [3]))).intersection 5 (.item (exRange (some [2]) none)) = .ok (.item (exRange (some [2]) (some [3]))) ∧
    (VSet.item (exRange (some [2]) (some [3]))).includes (.item (exPoint [2, 1])) = true := by decide +kernel

/-- C57. The union, whenever it returns, is the least set that includes both. -/
theorem C57_union_lub (a b u : VSet) (ha : a.Normal) (hb : b.Normal) (lim : Nat) (h : a.unionWith lim b = .ok u) :
    u.includes a = true ∧ u.includes b = true ∧ ∀ c : VSet, c.Normal → c.includes a = true → c.includes b = true → c.includes u = true := by
  obtain ⟨n1, e1⟩ := unionWith_ok ha hb h
  rw [includes_iff_cov n1 ha, includes_iff_cov n1 hb]
  refine ⟨fun x hx => (e1 x).2 (.inl hx), fun x hx => (e1 x).2 (.inr hx), fun c hc h1 h2 => ?_⟩
  rw [includes_iff_cov hc ha] at h1
  rw [includes_iff_cov hc hb] at h2
  rw [includes_iff_cov hc n1]
  intro x hx
  rcases (e1 x).1 hx with h | h
  · exact h1 x h
  · exact h2 x h

example : (VSet.item (exRange (some [1]) (some [3]))).unionWith 5 (.item (exRange (some [2]) (some [4]))) = .ok (.item (exRange (some [1]) (some [4]))) ∧
    (VSet.item (exRange (some [0]) none)).includes (.item (exRange (some [1]) (some [4]))) = true := by decide +kernel

/-- C57. Complement reverses inclusion; sets intersect iff neither is included in the complement of the other. -/
theorem C57_complement (a b na nb : VSet) (ha : a.Normal) (hb : b.Normal) (lim : Nat) (h1 : a.complement lim = .ok na)
    (h2 : b.complement lim = .ok nb) : a.includes b = nb.includes na ∧ a.intersects b = !nb.includes a := by
  obtain ⟨n1, e1⟩ := compl_ok ha h1
  obtain ⟨n2, e2⟩ := compl_ok hb h2
  constructor
  · rw [Bool.eq_iff_iff, includes_iff_cov ha hb, includes_iff_cov n2 n1]
    constructor
    · intro h x hx
      rw [e1] at hx
      exact (e2 x).2 ⟨hx.1, fun hb => hx.2 (h x hb)⟩
    · intro h x hx
      by_contra hc
      exact ((e2 x).1 (h x ((e1 x).2 ⟨cov_lt_top hx, hc⟩))).2 hx
  · rw [Bool.eq_iff_iff, intersects_iff_cov ha hb, Bool.not_eq_true', ← Bool.not_eq_true, includes_iff_cov n2 ha]
    constructor
    · rintro ⟨x, h1, h2⟩ h
      exact ((e2 x).1 (h x h1)).2 h2
    · intro h
      push Not at h
      obtain ⟨x, h1, h2⟩ := h
      rw [e2] at h2
      refine ⟨x, h1, ?_⟩
      by_contra h3
      exact h2 ⟨cov_lt_top h1, h3⟩

example : (VSet.item (exRange (some [1]) none)).complement 5 = .ok (.item (exRange none (some [1]) false)) ∧
    (VSet.item (exRange (some [2]) none)).complement 5 = .ok (.item (exRange none (some [2]) false)) ∧
    (VSet.item (exRange (some [1]) none)).includes (.item (exRange (some [2]) none)) = true ∧
    (VSet.item (exRange none (some [2]) false)).includes (.item (exRange none (some [1]) false)) = true := by decide +kernel

/-- C57. `a` includes `b` iff `a & b == b` iff `a | b == a`. -/
theorem C57_meet_join (a b i u : VSet) (ha : a.Normal) (hb : b.Normal) (lim : Nat) (h1 : a.intersection lim b = .ok i)
    (h2 : a.unionWith lim b = .ok u) : a.includes b = i.eq b ∧ a.includes b = u.eq a := by
  obtain ⟨n1, e1⟩ := inter_ok ha hb h1
  obtain ⟨n2, e2⟩ := unionWith_ok ha hb h2
  constructor
  · rw [Bool.eq_iff_iff, includes_iff_cov ha hb, eq_iff_cov n1 hb]
    exact ⟨fun h x => by rw [e1]; exact ⟨fun h => h.2, fun hx => ⟨h x hx, hx⟩⟩, fun h x hx => ((e1 x).1 ((h x).2 hx)).1⟩
  · rw [Bool.eq_iff_iff, includes_iff_cov ha hb, eq_iff_cov n2 ha]
    exact ⟨fun h x => by rw [e2]; exact ⟨fun hx => hx.elim id (h x), .inl⟩, fun h x hx => (h x).1 ((e2 x).2 (.inr hx))⟩

example : (VSet.item (exRange (some [1]) none)).intersection 5 (.item (exRange (some [2]) none)) = .ok (.item (exRange (some [2]) none)) ∧
    (VSet.item (exRange (some [1]) none)).unionWith 5 (.item (exRange (some [2]) none)) = .ok (.item (exRange (some [1]) none)) := by decide +kernel

/-- C57. Intersection and union are monotone. -/
theorem C57_monotone (a a' b b' i i' u u' : VSet) (ha : a.Normal) (ha' : a'.Normal) (hb : b.Normal) (hb' : b'.Normal) (lim : Nat)
    (h1 : a.includes a' = true) (h2 : b.includes b' = true) (hi : a.intersection lim b = .ok i) (hi' : a'.intersection lim b' = .ok i')
    (hu : a.unionWith lim b = .ok u) (hu' : a'.unionWith lim b' = .ok u') : i.includes i' = true ∧ u.includes u' = true := by
  obtain ⟨n1, e1⟩ := inter_ok ha hb hi
  obtain ⟨n2, e2⟩ := inter_ok ha' hb' hi'
  obtain ⟨n3, e3⟩ := unionWith_ok ha hb hu
  obtain ⟨n4, e4⟩ := unionWith_ok ha' hb' hu'
  rw [includes_iff_cov ha ha'] at h1
  rw [includes_iff_cov hb hb'] at h2
  rw [includes_iff_cov n1 n2, includes_iff_cov n3 n4]
  exact ⟨fun x hx => (e1 x).2 ⟨h1 x ((e2 x).1 hx).1, h2 x ((e2 x).1 hx).2⟩, fun x hx => (e3 x).2 (((e4 x).1 hx).imp (h1 x) (h2 x))⟩

example : (VSet.item (exRange (some [1]) none)).includes (.item (exRange (some [2]) none)) = true ∧
    (VSet.item (exRange (some [1]) none)).intersection 5 (.item (exRange none (some [4]) false)) = .ok (.item (exRange (some [1]) (some [4]))) ∧
    (VSet.item (exRange (some [2]) none)).intersection 5 (.item (exRange none (some [3]) false)) = .ok (.item (exRange (some [2]) (some [3]))) ∧
    (VSet.item (exRange (some [1]) (some [4]))).includes (.item (exRange (some [2]) (some [3]))) = true := by decide +kernel

/-- C57. Where the difference is exact (C23), `a` includes `b` iff `b - a` is empty. -/
theorem C57_difference (a b d : VSet) (ha : a.Normal) (hb : b.Normal) (lim : Nat) (h : b.difference lim a = .ok d)
    (h1 : ∀ items, ¬ (b = .union items ∧ a = .empty))
    (h2 : ∀ r items, b = .item (.range r) → a = .union items → ∀ j ∈ items, ¬ ∀ v, (Item.range r).Mem v → j.Mem v) :
    a.includes b = true ↔ d = .empty := by
  obtain ⟨s, s1, s2, s3⟩ := difference_spec hb ha (by
    rintro (⟨r, items, e1, e2, j, hj, j1, j2⟩ | ⟨items, e⟩)
    · refine h2 r items e1 e2 j hj (fun v hv => ?_)
      rw [mem_iff_cut] at hv ⊢
      exact ⟨j1.trans hv.1, lt_of_lt_of_le hv.2 j2⟩
    · exact h1 items e)
  rw [s1] at h; cases h
  rw [includes_iff_cov ha hb, s2.eq_empty_iff]
  exact ⟨fun h x hx => ((s3 x).1 hx).2 (h x ((s3 x).1 hx).1), fun h x hx => by by_contra hc; exact h x ((s3 x).2 ⟨hx, hc⟩)⟩

example : (VSet.item (exRange (some [1]) none)).includes (.union [exRange (some [1]) (some [2]), exPoint [3]]) = true ∧
    (VSet.item (exRange (some [1]) none false)).includes (.union [exRange (some [1]) (some [2]), exPoint [3]]) = false := by decide +kernel

/-! ## C58 -/

/-- C58. The results of operations on sets with `m` and `n` items, in normal form or not, have at most `m + n - 1`
(intersection), `m + n` (union, difference) and `n + 1` (complement) items. -/
theorem C58_sizes (a b s : VSet) (lim : Nat) :
    (a.intersection lim b = .ok s → s.size ≤ a.size + b.size - 1) ∧ (a.unionWith lim b = .ok s → s.size ≤ a.size + b.size) ∧
      (a.difference lim b = .ok s → s.size ≤ a.size + b.size) ∧ (a.complement lim = .ok s → s.size ≤ a.size + 1) := by
  refine ⟨intersection_size, unionWith_size, difference_size, fun h => ?_⟩
  have key : ∀ {x : VSet}, VSet.universal.difference lim x = .ok s → s.size ≤ x.size + 1 := by
    intro x hx
    have := difference_size hx
    have e : VSet.universal.size = 1 := rfl
    omega
  cases a with
  | empty => cases h; exact le_rfl
  | item i => exact key h
  | union l => exact key h

example : (VSet.item (exRange (some [1]) (some [5]))).difference 5 (.union [exPoint [2], exPoint [3]]) =
      .ok (.union [exRange (some [1]) (some [2]), exRange (some [2]) (some [3]) false, exRange (some [3]) (some [5]) false]) ∧
    (VSet.item (exRange (some [1]) (some [5]))).size + (VSet.union [exPoint [2], exPoint [3]]).size = 3 := by decide +kernel

/-- C58. `VersionUnion.of` of any sets has at most as many items as they have together. -/
theorem C58_union_of (sets : List VSet) (s : VSet) (lim : Nat) (h : VSet.unionOf lim sets = .ok s) : s.size ≤ (sets.map VSet.size).sum := unionOf_size h

example : VSet.unionOf 5 [.item (exPoint [1]), .item (exRange (some [2]) (some [4])), .item (exRange (some [3]) none)] =
    .ok (.union [exPoint [1], exRange (some [2]) none]) := by decide +kernel

/-- The bounds are reached; see `C58_reached` for all sizes. -/
example :
    ((VSet.union [exPoint [1], exRange (some [2]) (some [5])]).intersection 5 (.union [exRange (some [0]) (some [3]), exRange (some [4]) (some [6])])).toOption.map VSet.size = some 3 ∧
    ((VSet.union [exPoint [1], exPoint [2]]).unionWith 5 (.union [exPoint [3], exPoint [4]])).toOption.map VSet.size = some 4 ∧
    ((VSet.union [exRange (some [1]) (some [4]), exRange (some [5]) (some [8])]).difference 5 (.union [exPoint [2], exPoint [6]])).toOption.map VSet.size = some 4 ∧
    ((VSet.union [exPoint [1], exPoint [2]]).complement 5).toOption.map VSet.size = some 3 := by decide +kernel

end Verif
