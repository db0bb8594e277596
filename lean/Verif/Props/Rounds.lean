import Verif.Proofs.Rounds
import Verif.Props.SetOrder
/-!
# C94: how many rounds the loops of the set operations take
-/

namespace Verif
open scoped Verif

/-! ## C94: rounds -/

/-- C94. The operations with counted rounds return what the operations return. -/
theorem C94_same (lim : Nat) (a b : VSet) (v : Version) (s : Specifier) :
    (Rounds.contains a v).result = .ok (a.contains v) ∧ (Rounds.includes a b).result = .ok (a.includes b) ∧
      (Rounds.intersects a b).result = .ok (a.intersects b) ∧ (Rounds.intersection lim a b).result = a.intersection lim b ∧
      (Rounds.unionWith lim a b).result = a.unionWith lim b ∧ (Rounds.difference lim a b).result = a.difference lim b ∧
      (Rounds.complement lim a).result = a.complement lim ∧ (Rounds.toSet lim s).result = s.toSet lim :=
  ⟨Rounds.contains_result a v, Rounds.includes_result a b, Rounds.intersects_result a b, Rounds.intersection_result lim a b,
    Rounds.unionWith_result lim a b, Rounds.difference_result lim a b, Rounds.complement_result lim a, Rounds.toSet_result lim s⟩

example : (Rounds.unionWith 5 (.union [exPoint [1], exPoint [3]]) (.item (exPoint [2]))).result =
      .ok (.union [exPoint [1], exPoint [2], exPoint [3]]) ∧
    (Rounds.unionWith 5 (.union [exPoint [1], exPoint [3]]) (.item (exPoint [2]))).rounds = 6 := by decide +kernel

/-- C94. `contains` takes at most one round for each item of the set, `includes` and `intersects` fewer than there are items in
both sets. -/
theorem C94_queries (a b : VSet) (v : Version) :
    (Rounds.contains a v).rounds ≤ a.size ∧ (Rounds.includes a b).rounds ≤ a.size + b.size - 1 ∧
      (Rounds.intersects a b).rounds ≤ a.size + b.size - 1 :=
  ⟨Rounds.contains_rounds a v, Rounds.includes_rounds a b, Rounds.intersects_rounds a b⟩

/-- The bounds are reached. -/
example : (Rounds.contains (.union [exPoint [1], exPoint [3]]) (exVersion [3])).rounds = 2 ∧
    (Rounds.includes (.union [exPoint [1], exPoint [3]]) (.union [exPoint [1], exPoint [3]])).rounds = 3 ∧
    (Rounds.intersects (.union [exPoint [1], exPoint [3]]) (.union [exPoint [2], exPoint [4]])).rounds = 3 := by decide +kernel

/-- C94. `intersection` takes at most three rounds for each item of the sets but one. -/
theorem C94_intersection (lim : Nat) (a b : VSet) (ha : a.Normal) (hb : b.Normal) :
    (Rounds.intersection lim a b).rounds ≤ 3 * (a.size + b.size - 1) := by
  obtain ⟨s, h, -⟩ := intersection_spec ha hb
  exact Rounds.intersection_rounds lim (h 0)

/-- The bound is reached. -/
example : (Rounds.intersection 3 (.union [exRange (some [1]) (some [3]), exRange (some [5]) (some [7])])
    (.union [exRange (some [2]) (some [6]), exRange (some [7]) (some [8])])).rounds = 7 ∧
    (Rounds.intersection 3 (.item (exRange (some [1]) (some [9])))
      (.union [exRange (some [2]) (some [6]), exRange (some [7]) (some [8])])).rounds = 6 := by decide +kernel

/-- C94. `union`, when it returns, takes at most seven rounds for each item of the sets. -/
theorem C94_union (lim : Nat) (a b s : VSet) (ha : a.Normal) (hb : b.Normal) (h : a.unionWith (lim + 2) b = .ok s) :
    (Rounds.unionWith (lim + 2) a b).rounds ≤ 7 * (a.size + b.size) := Rounds.unionWith_rounds lim _ ha hb h

example : (Rounds.unionWith 7 (.item (exPoint [2])) (.item (exRange (some [1]) (some [2])))).rounds = 4 ∧
    (Rounds.unionWith 7 (.item (exPoint [2])) (.item (exRange (some [1]) (some [2])))).result =
      .ok (.item (exRange (some [1]) (some [2]) true true)) := by decide +kernel

/-- C94. `difference` and `complement` take at most seven rounds for each item of the sets (the universal set being one). -/
theorem C94_difference (lim : Nat) (a b : VSet) (ha : a.Normal) (hb : b.Normal) :
    (Rounds.difference lim a b).rounds ≤ 7 * (a.size + b.size) ∧ (Rounds.complement lim a).rounds ≤ 7 * (a.size + 1) := by
  have ne : ∀ {x : VSet}, x.Normal → ∀ items, x = .union items → items ≠ [] := by
    rintro x hx items rfl rfl
    exact absurd hx.1 (by simp)
  have key : ∀ {x y : VSet}, x.Normal → y.Normal → (Rounds.difference lim x y).rounds ≤ 7 * (x.size + y.size) := by
    intro x y hx hy
    by_cases hbad : DiffBad x y
    · rcases hbad with ⟨r, items, rfl, rfl, h⟩ | ⟨items, rfl, rfl⟩
      · exact Rounds.difference_rounds lim (ne hx) (difference_bad_covered hx hy h 0)
      · exact Rounds.difference_rounds lim (ne hx) (difference_bad_empty items 0)
    · obtain ⟨s, h, -⟩ := difference_spec hx hy hbad
      exact Rounds.difference_rounds lim (ne hx) (h 0)
  refine ⟨key ha hb, ?_⟩
  cases a with
  | empty => exact Nat.zero_le _
  | item i =>
    refine (key (x := .universal) universal_normal ha).trans ?_
    rw [Nat.add_comm]
    exact Nat.le_refl _
  | union l =>
    refine (key (x := .universal) universal_normal ha).trans ?_
    rw [Nat.add_comm]
    exact Nat.le_refl _

example : (Rounds.difference 3 (.item (exRange (some [1]) (some [9]))) (.union [exPoint [2], exPoint [4]])).rounds = 16 ∧
    (Rounds.complement 3 (.union [exPoint [2], exPoint [4]])).result =
      .ok (.union [exRange none (some [2]) false, exRange (some [2]) (some [4]) false, exRange (some [4]) none false]) := by decide +kernel

/-- C94. Converting a specifier to a set takes, when it succeeds, at most 14 rounds for each pair of its parts. -/
theorem C94_conversion (lim : Nat) (s : Specifier) (hs : s.Valid) (x : VSet) (h : s.toSet (lim + 2) = .ok x) :
    (Rounds.toSet (lim + 2) s).rounds ≤ 14 * (s.leaves * s.leaves) := ((Rounds.toSet_quadratic lim hs).2 x h).2

example : (Specifier.any [.all [.one ⟨.greater, exVersion [1]⟩, .one ⟨.less, exVersion [2]⟩], .one ⟨.doubleEqual, exVersion [3]⟩]).leaves = 3 ∧
    (Rounds.toSet 9 (.any [.all [.one ⟨.greater, exVersion [1]⟩, .one ⟨.less, exVersion [2]⟩], .one ⟨.doubleEqual, exVersion [3]⟩])).rounds = 4 := by
  decide +kernel

/-- C94. The square is reached, though a linear number of rounds would do: converting `== v₁ || … || == vₙ`, the versions being
in increasing order, to the set of these versions takes `n (n + 1) - 2` rounds, while `VersionUnion.of` makes the same set of
the `n` versions in at most `2 n` rounds. -/
theorem C94_quadratic (lim : Nat) (l : List Version) (hl : l ≠ []) (h : l.Pairwise (· <ₚ ·)) :
    (∃ x, (Specifier.any (l.map fun v => .one ⟨.doubleEqual, v⟩)).toSet (lim + 1) = .ok x ∧
      (Rounds.unionOf lim (l.map fun v => .item (.point v))).result = .ok x) ∧
    (Rounds.toSet (lim + 1) (.any (l.map fun v => .one ⟨.doubleEqual, v⟩))).rounds = l.length * (l.length + 1) - 2 ∧
    (Rounds.unionOf lim (l.map fun v => .item (.point v))).rounds ≤ 2 * l.length := by
  have hg : Gaps (l.map Item.point) := by
    unfold Gaps
    rw [List.pairwise_map]
    refine h.imp fun {v w} hvw => ?_
    rw [vlt_iff] at hvw
    show cutAt v true < cutAt w false
    rw [cutAt_lt]
    exact .inl hvw
  have hn : AllNormal (l.map Item.point) := by
    intro i hi
    obtain ⟨w, -, rfl⟩ := List.mem_map.1 hi
    trivial
  obtain ⟨h1, h2⟩ := Rounds.points_rounds lim hl hg
  have e : (l.map fun v => VSet.item (.point v)) = (l.map Item.point).map .item := by simp
  have hm : ∀ k, VSet.unionOf k ((l.map Item.point).map .item) = .ok (ofItems (l.map .point)) := unionOf_gaps hn hg
  rw [Rounds.toSet_result] at h1
  rw [e, Rounds.unionOf_result]
  refine ⟨⟨_, h1, hm lim⟩, by omega, ?_⟩
  have := Rounds.unionOf_simple lim (hm 0)
  rwa [List.length_map] at this

example : (Rounds.toSet 9 (.any ([1, 2, 3, 4].map fun k => .one ⟨.doubleEqual, exVersion [k]⟩))).rounds = 18 ∧
    (Rounds.unionOf 9 ([1, 2, 3, 4].map fun k => .item (exPoint [k]))).rounds = 8 := by decide +kernel

end Verif
