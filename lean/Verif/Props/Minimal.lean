import Mathlib.Data.Fintype.EquivFin
import Verif.Props.SetOrder
import Verif.Props.Order
import Verif.Proofs.Density
/-!
# Properties of the number of items (C58, C90)
-/

namespace Verif
open scoped Verif

theorem item_convex {i : Item} {u v w : Version} (hu : i.Mem u) (hw : i.Mem w) (h1 : u ≤ₚ v) (h2 : v ≤ₚ w) : i.Mem v := by
  rw [mem_iff_cut] at *
  rw [vle_iff] at h1 h2
  have e1 : cut u ≤ cut v := (cutAt_le _ _ _ _).2 (h1.lt_or_eq.imp id fun h => ⟨h, id⟩)
  have e2 : cut v ≤ cut w := (cutAt_le _ _ _ _).2 (h2.lt_or_eq.imp id fun h => ⟨h, id⟩)
  exact ⟨hu.1.trans e1, e2.trans_lt hw.2⟩

/-- Versions in the items of a list, with a version in none of them between any two, are no more than the items. -/
theorem separated {l : List Item} {vs : List Version} (hm : ∀ v ∈ vs, ∃ i ∈ l, i.Mem v)
    (hs : vs.Pairwise (fun v w => ∃ u, v ≤ₚ u ∧ u ≤ₚ w ∧ ¬ ∃ i ∈ l, i.Mem u)) : vs.length ≤ l.length := by
  have h : ∀ k : Fin vs.length, ∃ j : Fin l.length, l[j].Mem vs[k] := by
    intro k
    obtain ⟨i, hi, hv⟩ := hm vs[k] (List.getElem_mem k.2)
    obtain ⟨j, hj, rfl⟩ := List.getElem_of_mem hi
    exact ⟨⟨j, hj⟩, hv⟩
  choose g hg using h
  have hne : ∀ j k : Fin vs.length, j < k → g j ≠ g k := by
    intro j k hjk he
    obtain ⟨u, u1, u2, u3⟩ := List.pairwise_iff_getElem.1 hs j k j.2 k.2 hjk
    have hk := hg k
    rw [← he] at hk
    exact u3 ⟨l[g j], List.getElem_mem (g j).2, item_convex (hg j) hk u1 u2⟩
  have hinj : Function.Injective g := by
    intro j k he
    rcases lt_trichotomy j k with h | h | h
    · exact absurd he (hne j k h)
    · exact h
    · exact absurd he.symm (hne k j h)
  simpa using Fintype.card_le_of_injective g hinj

/-- A version in each item, and one after each item that is in none, of a sorted list with gaps. -/
theorem gaps_hole {l : List Item} (hw : ∀ i ∈ l, i.Wf) (hn : AllNormal l) (hg : Gaps l) {j k : Nat} (hj : j < l.length) (hk : k < l.length)
    (h : j < k) : ∃ w : Version, w.Wf ∧ l[j].hi ≤ cut w ∧ cut w < l[k].lo ∧ ¬ ∃ i ∈ l, i.Mem w := by
  have hj1 : j + 1 < l.length := by omega
  have hgt : ∀ a b (ha : a < l.length) (hb : b < l.length), a < b → l[a].hi < l[b].lo := fun a b ha hb hab =>
    List.pairwise_iff_getElem.1 hg a b ha hb hab
  have hlh : ∀ a (ha : a < l.length), l[a].lo < l[a].hi := fun a ha => (hn _ (List.getElem_mem ha)).lo_lt_hi
  obtain ⟨w, w1, w2, w3⟩ := exists_between (hw _ (List.getElem_mem hj)).hi (hw _ (List.getElem_mem hj1)).lo (hgt j (j + 1) hj hj1 (by omega))
  refine ⟨w, w1, w2, ?_, ?_⟩
  · rcases Nat.lt_or_ge (j + 1) k with h1 | h1
    · exact w3.trans ((hlh _ hj1).trans (hgt _ _ hj1 hk h1))
    · obtain rfl : k = j + 1 := by omega
      exact w3
  · rintro ⟨i, hi, hm⟩
    obtain ⟨a, ha, rfl⟩ := List.getElem_of_mem hi
    rw [mem_iff_cut] at hm
    rcases Nat.lt_or_ge a j with h1 | h1
    · exact absurd hm.2 (not_lt.2 (((hgt a j ha hj h1).trans (hlh j hj)).le.trans w2))
    · rcases Nat.lt_or_ge j a with h2 | h2
      · have : l[j + 1].lo ≤ l[a].lo := by
          rcases Nat.lt_or_ge (j + 1) a with h3 | h3
          · exact ((hlh _ hj1).trans (hgt _ _ hj1 ha h3)).le
          · obtain rfl : a = j + 1 := by omega
            exact le_rfl
        exact absurd hm.1 (not_le.2 (w3.trans_le this))
      · obtain rfl : a = j := by omega
        exact absurd hm.2 (not_lt.2 w2)

theorem mem_extract (s : VSet) (v : Version) : s.Mem v ↔ ∃ i ∈ s.extract, i.Mem v := by
  cases s <;> simp [VSet.Mem, VSet.extract]

theorem has_extract (s : VSet) (i : Item) : s.Has i ↔ i ∈ s.extract := by
  cases s <;> simp [VSet.Has, VSet.extract]

theorem vle_of_cut {v w : Version} (h : cut v ≤ cut w) : v ≤ₚ w := by
  rw [vle_iff]
  rcases (cutAt_le _ _ _ _).1 h with h | h
  · exact h.le
  · exact h.1.le

theorem num_lt_of {a b : Nat} (h : a < b) : exVersion [(a : Int)] <ₚ exVersion [(b : Int)] := by
  rw [C60_order _ _ (exValid _ (by simp) none none none (by simp) (by simp) (by simp)) (exValid _ (by simp) none none none (by simp) (by simp) (by simp))
    (by simp [Release.NonNeg, exVersion]) (by simp [Release.NonNeg, exVersion])]
  refine .inr ⟨rfl, .inl ⟨0, ?_, ?_⟩⟩
  · simp
  · simpa [Release.part, exVersion] using h
theorem num_lt (a b : Nat) : exVersion [(a : Int)] <ₚ exVersion [(b : Int)] ↔ a < b := by
  refine ⟨fun h => ?_, num_lt_of⟩
  rw [vlt_iff] at h
  rcases Nat.lt_trichotomy a b with g | rfl | g
  · exact g
  · exact absurd h (lt_irrefl _)
  · exact absurd ((vlt_iff _ _).1 (num_lt_of g)) (lt_asymm h)
theorem num_eq (a b : Nat) : exVersion [(a : Int)] ==ₚ exVersion [(b : Int)] ↔ a = b := by
  refine ⟨fun h => ?_, fun h => by subst h; exact (veq_iff _ _).2 rfl⟩
  rw [veq_iff] at h
  rcases Nat.lt_trichotomy a b with g | rfl | g
  · exact absurd h ((vlt_iff _ _).1 (num_lt_of g)).ne
  · rfl
  · exact absurd h ((vlt_iff _ _).1 (num_lt_of g)).ne'

/-- C90. No list of ranges and points that stands for the same versions is shorter than a set in normal form. -/
theorem C90_shortest (s : VSet) (hn : s.Normal) (hw : s.Wf) (l : List Item) (h : ∀ v : Version, v.Wf → (s.Mem v ↔ ∃ i ∈ l, i.Mem v)) :
    s.size ≤ l.length := by
  obtain ⟨h1, h2, -⟩ := hn.extract
  have hwe := hw.extract
  have hv : ∀ k : Fin s.extract.length, ∃ v : Version, v.Wf ∧ s.extract[k].Mem v := by
    intro k
    obtain ⟨v, v1, v2, v3⟩ := exists_between (hwe _ (List.getElem_mem k.2)).lo (hwe _ (List.getElem_mem k.2)).hi
      (h1 _ (List.getElem_mem k.2)).lo_lt_hi
    exact ⟨v, v1, (mem_iff_cut _ _).2 ⟨v2, v3⟩⟩
  choose f f1 f2 using hv
  have hlen : (List.ofFn f).length = s.size := by simp [VSet.size]
  rw [← hlen]
  apply separated
  · intro v hv
    rw [List.mem_ofFn] at hv
    obtain ⟨k, rfl⟩ := hv
    exact (h _ (f1 k)).1 ((mem_extract s _).2 ⟨_, List.getElem_mem k.2, f2 k⟩)
  · rw [List.pairwise_iff_getElem]
    intro j k hj hk hjk
    simp only [List.length_ofFn] at hj hk
    simp only [List.getElem_ofFn]
    obtain ⟨w, w1, w2, w3, w4⟩ := gaps_hole hwe h1 h2 hj hk hjk
    have m1 := (mem_iff_cut _ _).1 (f2 ⟨j, hj⟩)
    have m2 := (mem_iff_cut _ _).1 (f2 ⟨k, hk⟩)
    refine ⟨w, vle_of_cut (m1.2.le.trans w2), vle_of_cut (w3.le.trans m2.1), ?_⟩
    rw [← h w w1, mem_extract]
    exact w4

/-- `[1, 3)` and `{5}` cannot be written with one item; `[1, 2)`, `{2}`, `(2, 3)` and `{5}` is a longer list of the same versions. -/
example : (VSet.union [exRange (some [1]) (some [3]), exPoint [5]]).size ≤
    [exRange (some [1]) (some [2]), exPoint [2], exRange (some [2]) (some [3]) false, exPoint [5]].length :=
  C90_shortest _ (by decide +kernel) (by decide +kernel) _ (fun v _ => by
    have h12 : (exVersion [1]).key < (exVersion [2]).key := (vlt_iff _ _).1 (num_lt_of (show 1 < 2 by omega))
    have h23 : (exVersion [2]).key < (exVersion [3]).key := (vlt_iff _ _).1 (num_lt_of (show 2 < 3 by omega))
    simp only [VSet.Mem, List.mem_cons, List.not_mem_nil, or_false, exists_eq_or_imp, exists_eq_left, exRange, exPoint, Item.Mem, AboveMin, BelowMax,
      Option.map_some, Option.some.injEq, forall_eq', vlt_iff, veq_iff, Bool.false_eq_true, false_and, true_and]
    generalize (exVersion [1]).key = a at *
    generalize (exVersion [2]).key = b at *
    generalize (exVersion [3]).key = c at *
    rcases lt_trichotomy b v.key with h | h | h
    · simp [h, h.ne, not_lt_of_gt h, h12.trans h]
    · subst h; simp [h12, h23]
    · simp [h, h.ne', h.trans h23, not_lt_of_gt h])

/-- C90. A list of ranges and points of the same length that stands for the same versions has the same ranges and points. -/
theorem C90_unique (s : VSet) (hn : s.Normal) (hw : s.Wf) (l : List Item) (hl : l.length = s.size)
    (h : ∀ v : Version, v.Wf → (s.Mem v ↔ ∃ i ∈ l, i.Mem v)) :
    (∀ i ∈ l, ∃ j, s.Has j ∧ ∀ v : Version, v.Wf → (i.Mem v ↔ j.Mem v)) ∧
    ∀ j, s.Has j → ∃ i ∈ l, ∀ v : Version, v.Wf → (i.Mem v ↔ j.Mem v) := by
  obtain ⟨h1, h2, -⟩ := hn.extract
  have hwe := hw.extract
  generalize hE : s.extract = E at h1 h2 hwe
  have hsm : ∀ v, s.Mem v ↔ ∃ i ∈ E, i.Mem v := fun v => hE ▸ mem_extract s v
  have hv : ∀ k : Fin E.length, ∃ v : Version, v.Wf ∧ E[k].Mem v := by
    intro k
    obtain ⟨v, v1, v2, v3⟩ := exists_between (hwe _ (List.getElem_mem k.2)).lo (hwe _ (List.getElem_mem k.2)).hi
      (h1 _ (List.getElem_mem k.2)).lo_lt_hi
    exact ⟨v, v1, (mem_iff_cut _ _).2 ⟨v2, v3⟩⟩
  -- an item of `l` that meets two items of the set would hold the versions between them
  have key : ∀ i ∈ l, ∀ (j k : Fin E.length) (u v : Version), u.Wf → v.Wf → E[j].Mem u → E[k].Mem v → i.Mem u → i.Mem v → j = k := by
    have main : ∀ i ∈ l, ∀ (j k : Fin E.length) (u v : Version), E[j].Mem u → E[k].Mem v → i.Mem u → i.Mem v → ¬ j < k := by
      intro i hi j k u v hu hv iu iv hjk
      obtain ⟨w, w1, w2, w3, w4⟩ := gaps_hole hwe h1 h2 j.2 k.2 hjk
      have m1 := (mem_iff_cut _ _).1 hu
      have m2 := (mem_iff_cut _ _).1 hv
      exact w4 ((hsm w).1 ((h w w1).2 ⟨i, hi, item_convex iu iv (vle_of_cut (m1.2.le.trans w2)) (vle_of_cut (w3.le.trans m2.1))⟩))
    intro i hi j k u v _ _ hu hv iu iv
    rcases lt_trichotomy j k with hjk | hjk | hjk
    · exact absurd hjk (main i hi j k u v hu hv iu iv)
    · exact hjk
    · exact absurd hjk (main i hi k j v u hv hu iv iu)
  choose f f1 f2 using hv
  have hg : ∀ k : Fin E.length, ∃ a : Fin l.length, l[a].Mem (f k) := by
    intro k
    obtain ⟨i, hi, hm⟩ := (h _ (f1 k)).1 ((hsm _).2 ⟨_, List.getElem_mem k.2, f2 k⟩)
    obtain ⟨a, ha, rfl⟩ := List.getElem_of_mem hi
    exact ⟨⟨a, ha⟩, hm⟩
  choose g hg using hg
  have hinj : Function.Injective g := by
    intro j k he
    have hk := hg k
    rw [← he] at hk
    exact key _ (List.getElem_mem (g j).2) j k _ _ (f1 j) (f1 k) (f2 j) (f2 k) (hg j) hk
  have hcard : Fintype.card (Fin E.length) = Fintype.card (Fin l.length) := by
    simp only [Fintype.card_fin, hl, VSet.size, hE]
  have hsur : Function.Surjective g := ((Fintype.bijective_iff_injective_and_card g).2 ⟨hinj, hcard⟩).2
  have same : ∀ (k : Fin E.length) (v : Version), v.Wf → (l[g k].Mem v ↔ E[k].Mem v) := by
    intro k v hv
    constructor
    · intro hm
      obtain ⟨i, hi, him⟩ := (hsm v).1 ((h v hv).2 ⟨_, List.getElem_mem (g k).2, hm⟩)
      obtain ⟨a, ha, rfl⟩ := List.getElem_of_mem hi
      have := key _ (List.getElem_mem (g k).2) k ⟨a, ha⟩ _ v (f1 k) hv (f2 k) him (hg k) hm
      subst this
      exact him
    · intro hm
      obtain ⟨i, hi, him⟩ := (h v hv).1 ((hsm v).2 ⟨_, List.getElem_mem k.2, hm⟩)
      obtain ⟨a, ha, rfl⟩ := List.getElem_of_mem hi
      obtain ⟨k', hk'⟩ := hsur ⟨a, ha⟩
      have hmem : l[g k'].Mem v := by simp only [Fin.getElem_fin, hk']; exact him
      have := key _ (List.getElem_mem (g k').2) k' k _ v (f1 k') hv (f2 k') hm (hg k') hmem
      subst this
      exact hmem
  constructor
  · intro i hi
    obtain ⟨a, ha, rfl⟩ := List.getElem_of_mem hi
    obtain ⟨k, hk⟩ := hsur ⟨a, ha⟩
    refine ⟨E[k], by rw [has_extract, hE]; exact List.getElem_mem k.2, fun v hv => ?_⟩
    rw [← same k v hv]
    simp only [Fin.getElem_fin, hk]
  · intro j hj
    rw [has_extract, hE] at hj
    obtain ⟨a, ha, rfl⟩ := List.getElem_of_mem hj
    exact ⟨l[g ⟨a, ha⟩], List.getElem_mem _, fun v hv => same ⟨a, ha⟩ v hv⟩

/-- The same two items in the other order. -/
example : ∀ i ∈ [exPoint [5], exRange (some [1]) (some [3])], ∃ j, (VSet.union [exRange (some [1]) (some [3]), exPoint [5]]).Has j ∧
    ∀ v : Version, v.Wf → (i.Mem v ↔ j.Mem v) :=
  (C90_unique (.union [exRange (some [1]) (some [3]), exPoint [5]]) (by decide +kernel) (by decide +kernel)
    [exPoint [5], exRange (some [1]) (some [3])] rfl (fun v _ => by
    simp only [VSet.Mem, List.mem_cons, List.not_mem_nil, or_false, exists_eq_or_imp, exists_eq_left]; exact or_comm)).1

/-- C90. So union, intersection and complement return the shortest sets that stand for the versions they should. -/
theorem C90_results (a b s : VSet) (ha : a.Normal) (hb : b.Normal) (wa : a.Wf) (wb : b.Wf) (lim : Nat) (l : List Item) :
    (a.unionWith lim b = .ok s → (∀ v : Version, v.Wf → ((a.Mem v ∨ b.Mem v) ↔ ∃ i ∈ l, i.Mem v)) → s.size ≤ l.length) ∧
    (a.intersection lim b = .ok s → (∀ v : Version, v.Wf → ((a.Mem v ∧ b.Mem v) ↔ ∃ i ∈ l, i.Mem v)) → s.size ≤ l.length) ∧
    (a.complement lim = .ok s → (∀ v : Version, v.Wf → (¬ a.Mem v ↔ ∃ i ∈ l, i.Mem v)) → s.size ≤ l.length) := by
  have wf : ∀ x : VSet, x.Wf → ∀ i, x.Has i → (∀ v, i.min = some v → v.Wf) ∧ ∀ v, i.max = some v → v.Wf :=
    fun x hx i hi => hx.extract i ((has_extract x i).1 hi)
  have back : (∀ i, s.Has i → (∀ v, i.min = some v → v.Wf) ∧ ∀ v, i.max = some v → v.Wf) → s.Wf := by
    intro h
    cases s with
    | empty => trivial
    | item i => exact h i rfl
    | union l => exact fun i hi => h i hi
  refine ⟨fun h hl => ?_, fun h hl => ?_, fun h hl => ?_⟩
  · refine C90_shortest s (C19_normal_closed a b s ha hb lim (.inr (.inl h)))
      (back (C48_ends_from_operands _ a b s lim (wf a wa) (wf b wb) (.inr (.inl h)))) l (fun v hv => ?_)
    rw [← hl v hv, ← C21_union_exact a b s ha hb lim h v, vset_contains_iff_mem]
  · refine C90_shortest s (C19_normal_closed a b s ha hb lim (.inl h))
      (back (C48_ends_from_operands _ a b s lim (wf a wa) (wf b wb) (.inl h))) l (fun v hv => ?_)
    obtain ⟨t, t1, t2⟩ := C20_intersection_exact a b ha hb
    obtain rfl : s = t := Except.ok.inj (h.symm.trans (t1 lim))
    rw [← hl v hv, ← t2, vset_contains_iff_mem]
  · refine C90_shortest s (C19_normal_closed a b s ha hb lim (.inr (.inr (.inr (.inl h)))))
      (back (C48_ends_from_operands _ a b s lim (wf a wa) (wf b wb) (.inr (.inr (.inr (.inl h)))))) l (fun v hv => ?_)
    obtain ⟨t, t1, t2⟩ := C24_complement_exact a ha
    obtain rfl : s = t := Except.ok.inj (h.symm.trans (t1 lim))
    rw [← hl v hv, ← t2, vset_contains_iff_mem]

example : ((VSet.item (exRange (some [1]) (some [2]))).unionWith 3 (.item (exRange (some [2]) (some [3])))).toOption.map VSet.size = some 1 ∧
    ((VSet.item (exPoint [1])).complement 3).toOption.map VSet.size = some 2 := by decide +kernel

/-! ### the bounds of C58 are reached -/

/-- The version `x`. -/
abbrev num (x : Nat) : Version := exVersion [(x : Int)]

theorem lower {s : VSet} {k : Nat} (he : ∀ i < k, s.Mem (num (2 * i))) (ho : ∀ i, i + 1 < k → ¬ s.Mem (num (2 * i + 1))) : k ≤ s.size := by
  have h := separated (l := s.extract) (vs := (List.range k).map fun i => num (2 * i)) ?_ ?_
  · simpa [VSet.size] using h
  · intro v hv
    rw [List.mem_map] at hv
    obtain ⟨i, hi, rfl⟩ := hv
    exact (mem_extract _ _).1 (he i (List.mem_range.1 hi))
  · rw [List.pairwise_map]
    refine (List.pairwise_lt_range (n := k)).imp_of_mem ?_
    intro i j hi hj hij
    rw [List.mem_range] at hi hj
    refine ⟨num (2 * i + 1), ?_, ?_, ?_⟩
    · rw [vle_iff]; exact ((vlt_iff _ _).1 ((num_lt _ _).2 (by omega))).le
    · rw [vle_iff]; exact ((vlt_iff _ _).1 ((num_lt _ _).2 (by omega))).le
    · rw [← mem_extract]; exact ho i (by omega)

/-- The versions `c`, `c + 2`, `c + 4`, … as points. -/
def steps (c n : Nat) : List Item := (List.range n).map fun i => .point (num (c + 2 * i))

theorem mem_steps (c n x : Nat) : (∃ i ∈ steps c n, i.Mem (num x)) ↔ ∃ i < n, x = c + 2 * i := by
  simp only [steps, List.mem_map, List.mem_range]
  constructor
  · rintro ⟨_, ⟨i, hi, rfl⟩, h⟩
    exact ⟨i, hi, ((num_eq _ _).1 h).symm⟩
  · rintro ⟨i, hi, rfl⟩
    exact ⟨_, ⟨i, hi, rfl⟩, (num_eq _ _).2 rfl⟩

theorem steps_normal (c n : Nat) : AllNormal (steps c n) := by
  intro i hi
  simp only [steps, List.mem_map] at hi
  obtain ⟨k, -, rfl⟩ := hi
  trivial

theorem steps_gaps (c n : Nat) : Gaps (steps c n) := by
  unfold Gaps steps
  rw [List.pairwise_map]
  refine (List.pairwise_lt_range (n := n)).imp ?_
  intro i j hij
  rw [← before_iff]
  exact ⟨_, _, rfl, rfl, .inl ((num_lt _ _).2 (by omega))⟩

theorem mem_ofItems (l : List Item) (v : Version) : (ofItems l).Mem v ↔ ∃ i ∈ l, i.Mem v := by
  rw [mem_extract, extract_ofItems]

theorem size_ofItems (l : List Item) : (ofItems l).size = l.length := by rw [VSet.size, extract_ofItems]

theorem length_steps (c n : Nat) : (steps c n).length = n := by simp [steps]

/-- `[x, ∞)` and `(-∞, x)`. -/
def fromNum (x : Nat) : Item := .range ⟨some (num x), none, true, false⟩
def belowNum (x : Nat) : Item := .range ⟨none, some (num x), false, false⟩

theorem mem_fromNum (x y : Nat) : (fromNum x).Mem (num y) ↔ x ≤ y := by
  simp only [fromNum, Item.Mem, AboveMin, BelowMax, Option.some.injEq, forall_eq', reduceCtorEq, false_implies, implies_true, and_true, true_and, num_lt, num_eq]
  omega

theorem mem_belowNum (x y : Nat) : (belowNum x).Mem (num y) ↔ y < x := by
  simp only [belowNum, Item.Mem, AboveMin, BelowMax, Option.some.injEq, forall_eq', reduceCtorEq, false_implies, implies_true, true_and, num_lt, Bool.false_eq_true, false_and, or_false]

/-- C58. The bounds are reached, for operands of every size. -/
theorem C58_reached (m n : Nat) (hm : 1 ≤ m) (hn : 1 ≤ n) :
    (∃ a b s : VSet, a.Normal ∧ b.Normal ∧ a.size = m ∧ b.size = n ∧ (∀ lim, a.intersection lim b = .ok s) ∧ s.size = m + n - 1) ∧
    (∃ a b s : VSet, a.Normal ∧ b.Normal ∧ a.size = m ∧ b.size = n ∧ (∀ lim, a.unionWith (lim + 2) b = .ok s) ∧ s.size = m + n) ∧
    (∃ a b s : VSet, a.Normal ∧ b.Normal ∧ a.size = m ∧ b.size = n ∧ (∀ lim, a.difference lim b = .ok s) ∧ s.size = m + n) ∧
    ∃ a s : VSet, a.Normal ∧ a.size = n ∧ (∀ lim, a.complement lim = .ok s) ∧ s.size = n + 1 := by
  obtain ⟨M, rfl⟩ : ∃ M, m = M + 1 := ⟨m - 1, by omega⟩
  refine ⟨?_, ?_, ?_, ?_⟩
  · obtain ⟨N, rfl⟩ : ∃ N, n = N + 1 := ⟨n - 1, by omega⟩
    have na : (ofItems (steps 0 M ++ [fromNum (2 * M)])).Normal := by
      refine normal_ofItems ?_ ?_
      · intro i hi
        rcases List.mem_append.1 hi with hi | hi
        · exact steps_normal _ _ i hi
        · rw [List.mem_singleton.1 hi]; exact ⟨by rintro ⟨⟩, fun _ => rfl, by rintro _ _ _ ⟨⟩⟩
      · unfold Gaps
        rw [List.pairwise_append]
        refine ⟨steps_gaps _ _, by simp, ?_⟩
        intro i hi j hj
        simp only [steps, List.mem_map, List.mem_range] at hi
        obtain ⟨k, hk, rfl⟩ := hi
        rw [List.mem_singleton.1 hj, ← before_iff]
        exact ⟨_, _, rfl, rfl, .inl ((num_lt _ _).2 (by omega))⟩
    have nb : (ofItems (belowNum (2 * M + 1) :: steps (2 * M + 2) N)).Normal := by
      refine normal_ofItems ?_ ?_
      · intro i hi
        rcases List.mem_cons.1 hi with rfl | hi
        · exact ⟨fun _ => rfl, by rintro ⟨⟩, by rintro _ _ ⟨⟩⟩
        · exact steps_normal _ _ i hi
      · unfold Gaps
        rw [List.pairwise_cons]
        refine ⟨?_, steps_gaps _ _⟩
        intro j hj
        simp only [steps, List.mem_map, List.mem_range] at hj
        obtain ⟨k, hk, rfl⟩ := hj
        rw [← before_iff]
        exact ⟨_, _, rfl, rfl, .inl ((num_lt _ _).2 (by omega))⟩
    obtain ⟨s, s1, s2⟩ := C20_intersection_exact _ _ na nb
    have sa : (ofItems (steps 0 M ++ [fromNum (2 * M)])).size = M + 1 := by simp [size_ofItems, length_steps]
    have sb : (ofItems (belowNum (2 * M + 1) :: steps (2 * M + 2) N)).size = N + 1 := by simp [size_ofItems, length_steps]
    refine ⟨_, _, s, na, nb, sa, sb, s1, le_antisymm ?_ ?_⟩
    · have := (C58_sizes _ _ s 0).1 (s1 0)
      omega
    · have hmem : ∀ x, s.Mem (num x) ↔ ((∃ i < M, x = 0 + 2 * i) ∨ 2 * M ≤ x) ∧ (x < 2 * M + 1 ∨ ∃ i < N, x = 2 * M + 2 + 2 * i) := by
        intro x
        rw [← vset_contains_iff_mem, s2, mem_ofItems, mem_ofItems]
        simp only [List.mem_append, List.mem_cons, List.not_mem_nil, or_false, or_and_right, exists_or, exists_eq_left, mem_steps, mem_fromNum, mem_belowNum]
      refine lower (fun i hi => ?_) (fun i hi => ?_) <;> rw [hmem]
      · by_cases h1 : i < M
        · exact ⟨.inl ⟨i, h1, by omega⟩, .inl (by omega)⟩
        · by_cases h2 : i = M
          · exact ⟨.inr (by omega), .inl (by omega)⟩
          · exact ⟨.inr (by omega), .inr ⟨i - M - 1, by omega, by omega⟩⟩
      · rintro ⟨⟨k, -, h⟩ | h1, h2 | ⟨k, -, h⟩⟩ <;> omega
  · have na : (ofItems (steps 0 (M + 1))).Normal := normal_ofItems (steps_normal _ _) (steps_gaps _ _)
    have nb : (ofItems (steps (2 * (M + 1)) n)).Normal := normal_ofItems (steps_normal _ _) (steps_gaps _ _)
    obtain ⟨s, s1⟩ := C22_union_returns _ _ na nb (.inl (by
      rintro ⟨p, r, -, hr, -⟩
      simp only [has_extract, extract_ofItems, steps, List.mem_map, reduceCtorEq, and_false, exists_false, or_self] at hr))
    have sa : (ofItems (steps 0 (M + 1))).size = M + 1 := by simp [size_ofItems, length_steps]
    have sb : (ofItems (steps (2 * (M + 1)) n)).size = n := by simp [size_ofItems, length_steps]
    refine ⟨_, _, s, na, nb, sa, sb, s1, le_antisymm ?_ ?_⟩
    · have := (C58_sizes _ _ s 2).2.1 (s1 0)
      omega
    · have hmem : ∀ x, s.Mem (num x) ↔ (∃ i < M + 1, x = 0 + 2 * i) ∨ ∃ i < n, x = 2 * (M + 1) + 2 * i := by
        intro x
        rw [← vset_contains_iff_mem, C21_union_exact _ _ s na nb 2 (s1 0), mem_ofItems, mem_ofItems, mem_steps, mem_steps]
      refine lower (fun i hi => ?_) (fun i hi => ?_) <;> rw [hmem]
      · by_cases h1 : i < M + 1
        · exact .inl ⟨i, h1, by omega⟩
        · exact .inr ⟨i - (M + 1), by omega, by omega⟩
      · rintro (⟨k, -, h⟩ | ⟨k, -, h⟩) <;> omega
  · have na : (ofItems (belowNum (2 * n + 1) :: steps (2 * n + 2) M)).Normal := by
      refine normal_ofItems ?_ ?_
      · intro i hi
        rcases List.mem_cons.1 hi with rfl | hi
        · exact ⟨fun _ => rfl, by rintro ⟨⟩, by rintro _ _ ⟨⟩⟩
        · exact steps_normal _ _ i hi
      · unfold Gaps
        rw [List.pairwise_cons]
        refine ⟨?_, steps_gaps _ _⟩
        intro j hj
        simp only [steps, List.mem_map, List.mem_range] at hj
        obtain ⟨k, hk, rfl⟩ := hj
        rw [← before_iff]
        exact ⟨_, _, rfl, rfl, .inl ((num_lt _ _).2 (by omega))⟩
    have nb : (ofItems (steps 1 n)).Normal := normal_ofItems (steps_normal _ _) (steps_gaps _ _)
    have sa : (ofItems (belowNum (2 * n + 1) :: steps (2 * n + 2) M)).size = M + 1 := by simp [size_ofItems, length_steps]
    have sb : (ofItems (steps 1 n)).size = n := by simp [size_ofItems, length_steps]
    have ma : ∀ x, (ofItems (belowNum (2 * n + 1) :: steps (2 * n + 2) M)).Mem (num x) ↔ x < 2 * n + 1 ∨ ∃ i < M, x = 2 * n + 2 + 2 * i := by
      intro x
      rw [mem_ofItems]
      simp only [List.mem_cons, or_and_right, exists_or, exists_eq_left, mem_steps, mem_belowNum]
    obtain ⟨s, s1, s2⟩ := C23_difference_exact _ _ na nb (by
      rintro items ⟨-, h⟩
      rw [h] at sb
      simp only [VSet.size, VSet.extract, List.length_nil] at sb
      omega) (by
      intro r items hr hu j hj hc
      have h0 : (Item.range r).Mem (num 0) := by
        have := (ma 0).2 (.inl (by omega))
        rw [hr] at this
        exact this
      have hj' : j ∈ steps 1 n := by
        have : j ∈ (ofItems (steps 1 n)).extract := by rw [hu]; exact hj
        rwa [extract_ofItems] at this
      obtain ⟨k, -, h⟩ := (mem_steps 1 n 0).1 ⟨j, hj', hc _ h0⟩
      omega)
    refine ⟨_, _, s, na, nb, sa, sb, s1, le_antisymm ?_ ?_⟩
    · have := (C58_sizes _ _ s 0).2.2.1 (s1 0)
      omega
    · have hmem : ∀ x, s.Mem (num x) ↔ (x < 2 * n + 1 ∨ ∃ i < M, x = 2 * n + 2 + 2 * i) ∧ ¬ ∃ i < n, x = 1 + 2 * i := by
        intro x
        rw [← vset_contains_iff_mem, s2, ma, mem_ofItems, mem_steps]
      refine lower (fun i hi => ?_) (fun i hi => ?_) <;> rw [hmem]
      · refine ⟨?_, fun ⟨k, _, h⟩ => by omega⟩
        by_cases h1 : i < n + 1
        · exact .inl (by omega)
        · exact .inr ⟨i - n - 1, by omega, by omega⟩
      · rintro ⟨h1 | ⟨k, -, h1⟩, h2⟩
        · exact h2 ⟨i, by omega, by omega⟩
        · omega
  · have na : (ofItems (steps 1 n)).Normal := normal_ofItems (steps_normal _ _) (steps_gaps _ _)
    have sa : (ofItems (steps 1 n)).size = n := by simp [size_ofItems, length_steps]
    obtain ⟨s, s1, s2⟩ := C24_complement_exact _ na
    refine ⟨_, s, na, sa, s1, le_antisymm ?_ ?_⟩
    · have := (C58_sizes _ (.empty) s 0).2.2.2 (s1 0)
      omega
    · have hmem : ∀ x, s.Mem (num x) ↔ ¬ ∃ i < n, x = 1 + 2 * i := by
        intro x
        rw [← vset_contains_iff_mem, s2, mem_ofItems, mem_steps]
      refine lower (fun i hi => ?_) (fun i hi => ?_) <;> rw [hmem]
      · rintro ⟨k, _, h⟩; omega
      · exact fun h => h ⟨i, by omega, by omega⟩

example : ∃ a b s : VSet, a.Normal ∧ b.Normal ∧ a.size = 2 ∧ b.size = 3 ∧ (∀ lim, a.unionWith (lim + 2) b = .ok s) ∧ s.size = 5 :=
  (C58_reached 2 3 (by omega) (by omega)).2.1

end Verif
