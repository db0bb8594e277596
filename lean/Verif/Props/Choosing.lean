import Mathlib.Data.List.Sort
import Verif.Model.Choosing
import Verif.Props.Minimal
import Verif.Props.SetStrings
/-!
# Choosing from lists of versions (C116)
-/

namespace Verif
open scoped Verif
open Choosing

/-! ### max and min -/

theorem pyMax_spec (first : Version) (rest : List Version) :
    ∃ l1 l2, first :: rest = l1 ++ pyMax first rest :: l2 ∧ (∀ v ∈ l1, v <ₚ pyMax first rest) ∧ ∀ v ∈ l2, v ≤ₚ pyMax first rest := by
  induction rest generalizing first with
  | nil => exact ⟨[], [], rfl, by simp, by simp⟩
  | cons v l ih =>
    by_cases h : PyCmp.gt v first = true
    · have e : pyMax first (v :: l) = pyMax v l := by simp [pyMax, h]
      obtain ⟨l1, l2, h1, h2, h3⟩ := ih v
      rw [e]
      refine ⟨first :: l1, l2, by rw [h1]; rfl, ?_, h3⟩
      intro w hw
      rcases List.mem_cons.1 hw with rfl | hw
      · have hv : v ≤ₚ pyMax v l := by
          have hm : v ∈ l1 ++ pyMax v l :: l2 := by rw [← h1]; simp
          rw [vle_iff]
          rcases List.mem_append.1 hm with hm | hm
          · exact ((vlt_iff _ _).1 (h2 v hm)).le
          · rcases List.mem_cons.1 hm with hm | hm
            · rw [← hm]
            · exact (vle_iff _ _).1 (h3 v hm)
        exact (vlt_iff _ _).2 (((vgt_iff _ _).1 h).trans_le ((vle_iff _ _).1 hv))
      · exact h2 w hw
    · have e : pyMax first (v :: l) = pyMax first l := by simp [pyMax, h]
      obtain ⟨l1, l2, h1, h2, h3⟩ := ih first
      rw [e]
      have hv : v.key ≤ first.key := by
        rw [vgt_iff] at h
        exact not_lt.1 h
      have hf : first ≤ₚ pyMax first l := by
        have hm : first ∈ l1 ++ pyMax first l :: l2 := by rw [← h1]; simp
        rw [vle_iff]
        rcases List.mem_append.1 hm with hm | hm
        · exact ((vlt_iff _ _).1 (h2 _ hm)).le
        · rcases List.mem_cons.1 hm with hm | hm
          · rw [← hm]
          · exact (vle_iff _ _).1 (h3 _ hm)
      cases l1 with
      | nil =>
        have h1 := List.cons.inj h1
        refine ⟨[], v :: l, by rw [← h1.1]; rfl, by simp, ?_⟩
        intro w hw
        rcases List.mem_cons.1 hw with rfl | hw
        · exact (vle_iff _ _).2 (hv.trans ((vle_iff _ _).1 hf))
        · rw [h1.2] at hw
          exact h3 w hw
      | cons x l1 =>
        have h1 := List.cons.inj h1
        have hx := (vlt_iff _ _).1 (h2 x (by simp))
        rw [← h1.1] at hx
        refine ⟨first :: v :: l1, l2, congrArg (fun z => first :: v :: z) h1.2, ?_, h3⟩
        intro w hw
        rcases List.mem_cons.1 hw with rfl | hw
        · exact (vlt_iff _ _).2 hx
        · rcases List.mem_cons.1 hw with rfl | hw
          · exact (vlt_iff _ _).2 (hv.trans_lt hx)
          · exact h2 w (by simp [hw])

/-- C116. `max` gives a greatest version of the list, the first one if several are equal. -/
theorem C116_max (first : Version) (rest : List Version) (m : Version) :
    Choosing.pyMax first rest = m ↔ ∃ l1 l2, first :: rest = l1 ++ m :: l2 ∧ (∀ v ∈ l1, v <ₚ m) ∧ ∀ v ∈ l2, v ≤ₚ m := by
  constructor
  · rintro rfl
    exact pyMax_spec first rest
  · rintro ⟨l1, l2, h1, h2, h3⟩
    obtain ⟨k1, k2, g1, g2, g3⟩ := pyMax_spec first rest
    rw [h1] at g1
    rcases List.append_eq_append_iff.1 g1 with ⟨a, e1, e2⟩ | ⟨a, e1, e2⟩
    · cases a with
      | nil => exact (List.cons.inj e2).1.symm
      | cons x a =>
        have e2 := List.cons.inj e2
        have a1 := (vlt_iff _ _).1 (g2 m (by rw [e1, e2.1]; simp))
        have a2 := (vle_iff _ _).1 (h3 (pyMax first rest) (by rw [e2.2]; simp))
        exact absurd a1 (not_lt.2 a2)
    · cases a with
      | nil => exact (List.cons.inj e2).1
      | cons x a =>
        have e2 := List.cons.inj e2
        have a1 := (vlt_iff _ _).1 (h2 (pyMax first rest) (by rw [e1, e2.1]; simp))
        have a2 := (vle_iff _ _).1 (g3 m (by rw [e2.2]; simp))
        exact absurd a1 (not_lt.2 a2)

example : Choosing.pyMax (exVersion [1]) [exVersion [2], exVersion [2, 0], exVersion [2] (some rcTag)] = exVersion [2] := by decide +kernel


theorem pyMin_spec (first : Version) (rest : List Version) :
    ∃ l1 l2, first :: rest = l1 ++ pyMin first rest :: l2 ∧ (∀ v ∈ l1, pyMin first rest <ₚ v) ∧ ∀ v ∈ l2, pyMin first rest ≤ₚ v := by
  induction rest generalizing first with
  | nil => exact ⟨[], [], rfl, by simp, by simp⟩
  | cons v l ih =>
    have least : ∀ x l1 l2, x :: l = l1 ++ pyMin x l :: l2 → (∀ v ∈ l1, pyMin x l <ₚ v) → (∀ v ∈ l2, pyMin x l ≤ₚ v) →
        (pyMin x l).key ≤ x.key := by
      intro x l1 l2 h1 h2 h3
      have hm : x ∈ l1 ++ pyMin x l :: l2 := by rw [← h1]; simp
      rcases List.mem_append.1 hm with hm | hm
      · exact ((vlt_iff _ _).1 (h2 x hm)).le
      · rcases List.mem_cons.1 hm with hm | hm
        · rw [← hm]
        · exact (vle_iff _ _).1 (h3 x hm)
    by_cases h : PyCmp.lt v first = true
    · have e : pyMin first (v :: l) = pyMin v l := by simp [pyMin, h]
      obtain ⟨l1, l2, h1, h2, h3⟩ := ih v
      rw [e]
      refine ⟨first :: l1, l2, by rw [h1]; rfl, ?_, h3⟩
      intro w hw
      rcases List.mem_cons.1 hw with rfl | hw
      · exact (vlt_iff _ _).2 ((least v l1 l2 h1 h2 h3).trans_lt ((vlt_iff _ _).1 h))
      · exact h2 w hw
    · have e : pyMin first (v :: l) = pyMin first l := by simp [pyMin, h]
      obtain ⟨l1, l2, h1, h2, h3⟩ := ih first
      rw [e]
      have hv : first.key ≤ v.key := by
        rw [vlt_iff] at h
        exact not_lt.1 h
      have hf := least first l1 l2 h1 h2 h3
      cases l1 with
      | nil =>
        have h1 := List.cons.inj h1
        refine ⟨[], v :: l, by rw [← h1.1]; rfl, by simp, ?_⟩
        intro w hw
        rcases List.mem_cons.1 hw with rfl | hw
        · exact (vle_iff _ _).2 (hf.trans hv)
        · rw [h1.2] at hw
          exact h3 w hw
      | cons x l1 =>
        have h1 := List.cons.inj h1
        have hx := (vlt_iff _ _).1 (h2 x (by simp))
        rw [← h1.1] at hx
        refine ⟨first :: v :: l1, l2, congrArg (fun z => first :: v :: z) h1.2, ?_, h3⟩
        intro w hw
        rcases List.mem_cons.1 hw with rfl | hw
        · exact (vlt_iff _ _).2 hx
        · rcases List.mem_cons.1 hw with rfl | hw
          · exact (vlt_iff _ _).2 (hx.trans_le hv)
          · exact h2 w (by simp [hw])

/-- C116. `min` gives a least version of the list, the first one if several are equal. -/
theorem C116_min (first : Version) (rest : List Version) (m : Version) :
    Choosing.pyMin first rest = m ↔ ∃ l1 l2, first :: rest = l1 ++ m :: l2 ∧ (∀ v ∈ l1, m <ₚ v) ∧ ∀ v ∈ l2, m ≤ₚ v := by
  constructor
  · rintro rfl
    exact pyMin_spec first rest
  · rintro ⟨l1, l2, h1, h2, h3⟩
    obtain ⟨k1, k2, g1, g2, g3⟩ := pyMin_spec first rest
    rw [h1] at g1
    rcases List.append_eq_append_iff.1 g1 with ⟨a, e1, e2⟩ | ⟨a, e1, e2⟩
    · cases a with
      | nil => exact (List.cons.inj e2).1.symm
      | cons x a =>
        have e2 := List.cons.inj e2
        have a1 := (vlt_iff _ _).1 (g2 m (by rw [e1, e2.1]; simp))
        have a2 := (vle_iff _ _).1 (h3 (pyMin first rest) (by rw [e2.2]; simp))
        exact absurd a1 (not_lt.2 a2)
    · cases a with
      | nil => exact (List.cons.inj e2).1
      | cons x a =>
        have e2 := List.cons.inj e2
        have a1 := (vlt_iff _ _).1 (h2 (pyMin first rest) (by rw [e1, e2.1]; simp))
        have a2 := (vle_iff _ _).1 (g3 m (by rw [e2.2]; simp))
        exact absurd a1 (not_lt.2 a2)

example : Choosing.pyMin (exVersion [2]) [exVersion [1, 0], exVersion [1], exVersion [1] none (some postTag)] = exVersion [1, 0] := by decide +kernel

/-- C116. The order of the list does not matter, up to `==`. -/
theorem C116_max_order (v w : Version) (l k : List Version) (h : (v :: l).Perm (w :: k)) :
    Choosing.pyMax v l ==ₚ Choosing.pyMax w k ∧ Choosing.pyMin v l ==ₚ Choosing.pyMin w k := by
  have top : ∀ (v : Version) (l : List Version), pyMax v l ∈ v :: l ∧ ∀ x ∈ v :: l, x.key ≤ (pyMax v l).key := by
    intro v l
    obtain ⟨l1, l2, h1, h2, h3⟩ := pyMax_spec v l
    refine ⟨by rw [h1]; simp, fun x hx => ?_⟩
    rw [h1] at hx
    rcases List.mem_append.1 hx with hx | hx
    · exact ((vlt_iff _ _).1 (h2 x hx)).le
    · rcases List.mem_cons.1 hx with hx | hx
      · rw [← hx]
      · exact (vle_iff _ _).1 (h3 x hx)
  have bottom : ∀ (v : Version) (l : List Version), pyMin v l ∈ v :: l ∧ ∀ x ∈ v :: l, (pyMin v l).key ≤ x.key := by
    intro v l
    obtain ⟨l1, l2, h1, h2, h3⟩ := pyMin_spec v l
    refine ⟨by rw [h1]; simp, fun x hx => ?_⟩
    rw [h1] at hx
    rcases List.mem_append.1 hx with hx | hx
    · exact ((vlt_iff _ _).1 (h2 x hx)).le
    · rcases List.mem_cons.1 hx with hx | hx
      · rw [← hx]
      · exact (vle_iff _ _).1 (h3 x hx)
  rw [veq_iff, veq_iff]
  exact ⟨le_antisymm ((top w k).2 _ (h.mem_iff.1 (top v l).1)) ((top v l).2 _ (h.mem_iff.2 (top w k).1)),
    le_antisymm ((bottom v l).2 _ (h.mem_iff.2 (bottom w k).1)) ((bottom w k).2 _ (h.mem_iff.1 (bottom v l).1))⟩

example : Choosing.pyMax (exVersion [2]) [exVersion [1], exVersion [2, 0]] = exVersion [2] ∧
    Choosing.pyMax (exVersion [2, 0]) [exVersion [2], exVersion [1]] = exVersion [2, 0] ∧ exVersion [2] ==ₚ exVersion [2, 0] := by decide +kernel

/-! ### sorted -/

/-- What one expects of sorting: the same versions, no version before a smaller one, equal versions in the order given. -/
structure StablySorted (l r : List Version) : Prop where
  perm : r.Perm l
  sorted : r.Pairwise (fun a b => ¬ b <ₚ a)
  stable : ∀ v, r.filter (fun w => PyCmp.eq w v) = l.filter (fun w => PyCmp.eq w v)

theorem sorted_unique : ∀ {r r' : List Version}, r.Perm r' → r.Pairwise (fun a b => ¬ b <ₚ a) → r'.Pairwise (fun a b => ¬ b <ₚ a) →
    (∀ v, r.filter (fun w => PyCmp.eq w v) = r'.filter (fun w => PyCmp.eq w v)) → r = r' := by
  intro r
  induction r with
  | nil => intro r' h _ _ _; exact (List.nil_perm.1 h).symm
  | cons a r ih =>
    intro r' hp hs hs' hf
    cases r' with
    | nil => exact absurd hp.symm (by simp)
    | cons b r' =>
      obtain ⟨s1, s2⟩ := List.pairwise_cons.1 hs
      obtain ⟨t1, t2⟩ := List.pairwise_cons.1 hs'
      have le : ∀ {x y : Version}, ¬ y <ₚ x → x.key ≤ y.key := fun h => by
        rw [vlt_iff] at h
        exact not_lt.1 h
      have hab : a.key = b.key := by
        refine le_antisymm ?_ ?_
        · rcases List.mem_cons.1 (hp.mem_iff.2 (List.mem_cons_self (a := b))) with h | h
          · rw [h]
          · exact le (s1 b h)
        · rcases List.mem_cons.1 (hp.mem_iff.1 (List.mem_cons_self (a := a))) with h | h
          · rw [h]
          · exact le (t1 a h)
      have e := hf a
      rw [List.filter_cons_of_pos (by rw [veq_iff]), List.filter_cons_of_pos (by rw [veq_iff]; exact hab.symm)] at e
      have he : a = b := (List.cons.inj e).1
      subst he
      refine congrArg _ (ih ((List.perm_cons a).1 hp) s2 t2 fun v => ?_)
      have e := hf v
      by_cases hv : PyCmp.eq a v = true
      · simp only [List.filter_cons, hv, if_true] at e
        exact (List.cons.inj e).2
      · simp only [List.filter_cons, if_neg hv] at e
        exact e

theorem insert_filter (a v : Version) (l : List Version) :
    (l.orderedInsert (fun a b => (!PyCmp.lt b a) = true) a).filter (fun w => PyCmp.eq w v) = (a :: l).filter (fun w => PyCmp.eq w v) := by
  induction l with
  | nil => rfl
  | cons b l ih =>
    rw [List.orderedInsert]
    split
    · rfl
    · rename_i h
      have hlt : b.key < a.key := by
        rw [Bool.not_eq_true', Bool.not_eq_false] at h
        exact (vlt_iff _ _).1 h
      rw [List.filter_cons, ih]
      by_cases h1 : PyCmp.eq b v = true
      · have h2 : ¬ PyCmp.eq a v = true := by
          intro h2
          rw [veq_iff] at h1 h2
          rw [h1, h2] at hlt
          exact lt_irrefl _ hlt
        simp only [List.filter_cons, if_pos h1, if_neg h2]
      · rw [if_neg h1]
        by_cases h2 : PyCmp.eq a v = true
        · simp only [List.filter_cons, if_pos h2, if_neg h1]
        · simp only [List.filter_cons, if_neg h2, if_neg h1]

theorem pySorted_spec (l : List Version) : StablySorted l (pySorted l) := by
  refine ⟨List.perm_insertionSort _ l, ?_, fun v => ?_⟩
  · have : Std.Total (fun a b : Version => (!PyCmp.lt b a) = true) := ⟨fun a b => by
      by_cases h : PyCmp.lt b a = true
      · right
        rw [vlt_iff] at h
        have : ¬ PyCmp.lt a b = true := by rw [vlt_iff]; exact not_lt.2 h.le
        simpa using this
      · left
        simpa using h⟩
    have : IsTrans Version (fun a b : Version => (!PyCmp.lt b a) = true) := ⟨fun a b c h1 h2 => by
      simp only [Bool.not_eq_true', Bool.eq_false_iff, ne_eq, vlt_iff, not_lt] at h1 h2 ⊢
      exact h1.trans h2⟩
    refine (List.pairwise_insertionSort (fun a b : Version => (!PyCmp.lt b a) = true) l).imp ?_
    intro a b h
    simpa using h
  · unfold pySorted
    induction l with
    | nil => rfl
    | cons a l ih =>
      rw [List.insertionSort_cons, insert_filter]
      by_cases h : PyCmp.eq a v = true
      · simp only [List.filter_cons, if_pos h, ih]
      · simp only [List.filter_cons, if_neg h, ih]

/-- C116. What sorting is expected to give exists and is unique, so every correct stable algorithm gives the same list. -/
theorem C116_sorted (l r : List Version) : StablySorted l r ↔ r = Choosing.pySorted l := by
  constructor
  · intro h
    have h' := pySorted_spec l
    exact sorted_unique (h.perm.trans h'.perm.symm) h.sorted h'.sorted (fun v => (h.stable v).trans (h'.stable v).symm)
  · rintro rfl
    exact pySorted_spec l

example : Choosing.pySorted [exVersion [2], exVersion [1, 0], exVersion [2] (some rcTag), exVersion [1]] =
    [exVersion [1, 0], exVersion [1], exVersion [2] (some rcTag), exVersion [2]] := by decide +kernel

/-- C116. The order of the list does not matter for sorting, up to `==` in each place. -/
theorem C116_sorted_order (l k : List Version) (h : l.Perm k) :
    List.Forall₂ (fun a b => a ==ₚ b) (Choosing.pySorted l) (Choosing.pySorted k) := by
  have main : ∀ {r r' : List Version}, (r.map Version.key).Perm (r'.map Version.key) → r.Pairwise (fun a b => ¬ b <ₚ a) →
      r'.Pairwise (fun a b => ¬ b <ₚ a) → List.Forall₂ (fun a b => a ==ₚ b) r r' := by
    intro r
    induction r with
    | nil =>
      intro r' hp _ _
      have : r' = [] := by simpa using hp
      rw [this]
      exact .nil
    | cons a r ih =>
      intro r' hp hs hs'
      cases r' with
      | nil => exact absurd hp.symm (by simp)
      | cons b r' =>
        obtain ⟨s1, s2⟩ := List.pairwise_cons.1 hs
        obtain ⟨t1, t2⟩ := List.pairwise_cons.1 hs'
        have le : ∀ {x y : Version}, ¬ y <ₚ x → x.key ≤ y.key := fun h => by
          rw [vlt_iff] at h
          exact not_lt.1 h
        have hab : a.key = b.key := by
          refine le_antisymm ?_ ?_
          · have := hp.mem_iff.2 (List.mem_cons_self (a := b.key))
            rcases List.mem_cons.1 this with h | h
            · rw [h]
            · obtain ⟨x, hx, e⟩ := List.mem_map.1 h
              rw [← e]
              exact le (s1 x hx)
          · have := hp.mem_iff.1 (List.mem_cons_self (a := a.key))
            rcases List.mem_cons.1 this with h | h
            · rw [h]
            · obtain ⟨x, hx, e⟩ := List.mem_map.1 h
              rw [← e]
              exact le (t1 x hx)
        rw [List.map_cons, List.map_cons, hab] at hp
        exact .cons ((veq_iff _ _).2 hab) (ih ((List.perm_cons _).1 hp) s2 t2)
  have hl := pySorted_spec l
  have hk := pySorted_spec k
  exact main ((hl.perm.trans (h.trans hk.perm.symm)).map _) hl.sorted hk.sorted

example : Choosing.pySorted [exVersion [2, 0], exVersion [1], exVersion [2]] = [exVersion [1], exVersion [2, 0], exVersion [2]] ∧
    Choosing.pySorted [exVersion [2], exVersion [2, 0], exVersion [1]] = [exVersion [1], exVersion [2], exVersion [2, 0]] := by decide +kernel

/-- C116. In a sorted list the versions of a range, or equal to one version, are consecutive. -/
theorem C116_consecutive (i : Item) (l : List Version) (h : l.Pairwise (fun a b => ¬ b <ₚ a)) : l.filter i.contains <:+: l := by
  have le : ∀ {x y : Version}, ¬ y <ₚ x → x ≤ₚ y := fun h => by
    rw [vlt_iff] at h
    rw [vle_iff]
    exact not_lt.1 h
  have pre : ∀ (a : Version) (l : List Version), i.Mem a → (∀ b ∈ l, a ≤ₚ b) → l.Pairwise (fun a b => ¬ b <ₚ a) → l.filter i.contains <+: l := by
    intro a l ha hl hs
    induction l with
    | nil => exact List.prefix_refl _
    | cons b l ih =>
      obtain ⟨s1, s2⟩ := List.pairwise_cons.1 hs
      rw [List.filter_cons]
      by_cases hb : i.contains b = true
      · rw [if_pos hb]
        exact (List.prefix_cons_inj b).2 (ih (fun c hc => hl c (by simp [hc])) s2)
      · rw [if_neg hb]
        have hn : l.filter i.contains = [] := by
          rw [List.filter_eq_nil_iff]
          intro c hc hm
          rw [contains_iff_mem] at hb hm
          exact hb (item_convex ha hm (hl b (by simp)) (le (s1 c hc)))
        rw [hn]
        exact List.nil_prefix
  induction l with
  | nil => exact List.infix_refl _
  | cons a l ih =>
    obtain ⟨s1, s2⟩ := List.pairwise_cons.1 h
    rw [List.filter_cons]
    by_cases ha : i.contains a = true
    · rw [if_pos ha]
      exact ((List.prefix_cons_inj a).2 (pre a l ((contains_iff_mem _ _).1 ha) (fun b hb => le (s1 b hb)) s2)).isInfix
    · rw [if_neg ha]
      exact List.infix_cons (ih s2)

example : [exVersion [0], exVersion [1], exVersion [1, 5], exVersion [2]].filter (exRange (some [1]) (some [2])).contains =
    [exVersion [1], exVersion [1, 5]] := by decide +kernel

/-! ### the latest version in a set -/

theorem top_spec (v : Version) (l : List Version) : pyMax v l ∈ v :: l ∧ ∀ x ∈ v :: l, x ≤ₚ pyMax v l := by
  obtain ⟨l1, l2, h1, h2, h3⟩ := pyMax_spec v l
  refine ⟨by rw [h1]; simp, fun x hx => ?_⟩
  rw [h1] at hx
  rw [vle_iff]
  rcases List.mem_append.1 hx with hx | hx
  · exact ((vlt_iff _ _).1 (h2 x hx)).le
  · rcases List.mem_cons.1 hx with hx | hx
    · rw [← hx]
    · exact (vle_iff _ _).1 (h3 x hx)

/-- C116. The latest version in a set: none if the set has no version of the list, and otherwise a version of the list in the set
that is greatest among those. -/
theorem C116_latest (s : VSet) (l : List Version) :
    (Choosing.latest s l = none ↔ ∀ v ∈ l, ¬ s.Mem v) ∧
    ∀ m, Choosing.latest s l = some m → m ∈ l ∧ s.Mem m ∧ ∀ v ∈ l, s.Mem v → v ≤ₚ m := by
  have hf : ∀ v, v ∈ l.filter s.contains ↔ v ∈ l ∧ s.Mem v := by
    intro v
    rw [List.mem_filter, vset_contains_iff_mem]
  unfold latest
  cases h : l.filter s.contains with
  | nil =>
    rw [h] at hf
    refine ⟨⟨fun _ v hv hm => ?_, fun _ => rfl⟩, (fun m hm => by cases hm)⟩
    exact absurd ((hf v).2 ⟨hv, hm⟩) (by simp)
  | cons x k =>
    rw [h] at hf
    obtain ⟨t1, t2⟩ := top_spec x k
    constructor
    · refine ⟨(fun hh => by cases hh), fun hh => ?_⟩
      obtain ⟨a, b⟩ := (hf x).1 (by simp)
      exact absurd b (hh x a)
    · rintro m ⟨⟩
      obtain ⟨a, b⟩ := (hf _).1 t1
      exact ⟨a, b, fun v hv hm => t2 v ((hf v).2 ⟨hv, hm⟩)⟩

example : Choosing.latest (.item (exRange (some [1]) (some [2]))) [exVersion [1, 5], exVersion [2], exVersion [1, 7], exVersion [1, 6]] =
      some (exVersion [1, 7]) ∧
    Choosing.latest (.item (exRange (some [1]) (some [2]))) [exVersion [2], exVersion [3]] = none := by decide +kernel

theorem latest_of {s : VSet} {l : List Version} {m : Version} (hm : m ∈ l) (hs : s.Mem m) (h : ∀ v ∈ l, s.Mem v → v ≤ₚ m) :
    ∃ n, latest s l = some n ∧ n ==ₚ m := by
  obtain ⟨h1, h2⟩ := C116_latest s l
  cases hl : latest s l with
  | none => exact absurd hs (h1.1 hl m hm)
  | some n =>
    obtain ⟨a, b, c⟩ := h2 n hl
    refine ⟨n, rfl, ?_⟩
    rw [veq_iff]
    exact le_antisymm ((vle_iff _ _).1 (h n a b)) ((vle_iff _ _).1 (c m hm hs))

/-- C116. It depends, up to `==`, neither on the order of the list nor on which of equal versions are in it. -/
theorem C116_latest_order (s : VSet) (l k : List Version) (h1 : ∀ v ∈ l, ∃ w ∈ k, v ==ₚ w) (h2 : ∀ w ∈ k, ∃ v ∈ l, v ==ₚ w) :
    (Choosing.latest s l = none ∧ Choosing.latest s k = none) ∨
      ∃ m n, Choosing.latest s l = some m ∧ Choosing.latest s k = some n ∧ m ==ₚ n := by
  have mem : ∀ {v w : Version}, v ==ₚ w → (s.Mem v ↔ s.Mem w) := by
    intro v w h
    rw [← vset_contains_iff_mem, ← vset_contains_iff_mem, contains_cov, contains_cov, cut, cut, cutAt, cutAt, (veq_iff _ _).1 h]
  obtain ⟨a1, a2⟩ := C116_latest s l
  obtain ⟨b1, b2⟩ := C116_latest s k
  cases hl : latest s l with
  | none =>
    refine .inl ⟨rfl, b1.2 fun w hw hm => ?_⟩
    obtain ⟨v, hv, e⟩ := h2 w hw
    exact a1.1 hl v hv ((mem e).2 hm)
  | some m =>
    obtain ⟨c1, c2, c3⟩ := a2 m hl
    obtain ⟨w, hw, e⟩ := h1 m c1
    obtain ⟨n, hn, e'⟩ := latest_of hw ((mem e).1 c2) (fun x hx hxm => by
      obtain ⟨y, hy, ey⟩ := h2 x hx
      have := (vle_iff _ _).1 (c3 y hy ((mem ey).2 hxm))
      rw [vle_iff, ← (veq_iff _ _).1 ey, ← (veq_iff _ _).1 e]
      exact this)
    refine .inr ⟨m, n, rfl, hn, ?_⟩
    rw [veq_iff] at e e' ⊢
    rw [e, e']

example : Choosing.latest (.item (exRange (some [1]) (some [2]))) [exVersion [1, 5], exVersion [1]] = some (exVersion [1, 5]) ∧
    Choosing.latest (.item (exRange (some [1]) (some [2]))) [exVersion [1, 0], exVersion [1], exVersion [1, 5, 0]] = some (exVersion [1, 5, 0]) := by
  decide +kernel

/-- C116. A set that includes another has a latest version at least as great. -/
theorem C116_latest_includes (a b : VSet) (ha : a.Normal) (hb : b.Normal) (h : a.includes b = true) (l : List Version) (m : Version)
    (hm : Choosing.latest b l = some m) : ∃ n, Choosing.latest a l = some n ∧ m ≤ₚ n := by
  obtain ⟨c1, c2, -⟩ := (C116_latest b l).2 m hm
  have c3 := (C26_includes a b ha hb).1 h m c2
  cases hl : latest a l with
  | none => exact absurd c3 ((C116_latest a l).1.1 hl m c1)
  | some n => exact ⟨n, rfl, ((C116_latest a l).2 n hl).2.2 m c1 c3⟩

example : Choosing.latest (.item (exRange (some [1]) none true false)) [exVersion [1, 5], exVersion [3]] = some (exVersion [3]) ∧
    Choosing.latest (.item (exRange (some [1]) (some [2]))) [exVersion [1, 5], exVersion [3]] = some (exVersion [1, 5]) := by decide +kernel

/-- C116. The latest version in a union is the greater one of the latest versions in its parts. -/
theorem C116_latest_union (a b u : VSet) (ha : a.Normal) (hb : b.Normal) (lim : Nat) (h : a.unionWith lim b = .ok u) (l : List Version)
    (x y : Version) (hx : Choosing.latest a l = some x) (hy : Choosing.latest b l = some y) :
    ∃ n, Choosing.latest u l = some n ∧ (y ≤ₚ x → n ==ₚ x) ∧ (x ≤ₚ y → n ==ₚ y) := by
  have mem : ∀ v, u.Mem v ↔ a.Mem v ∨ b.Mem v := fun v => (vset_contains_iff_mem u v).symm.trans (C21_union_exact a b u ha hb lim h v)
  obtain ⟨x1, x2, x3⟩ := (C116_latest a l).2 x hx
  obtain ⟨y1, y2, y3⟩ := (C116_latest b l).2 y hy
  cases hl : latest u l with
  | none => exact absurd ((mem x).2 (.inl x2)) ((C116_latest u l).1.1 hl x x1)
  | some n =>
    obtain ⟨n1, n2, n3⟩ := (C116_latest u l).2 n hl
    have nx := (vle_iff _ _).1 (n3 x x1 ((mem x).2 (.inl x2)))
    have ny := (vle_iff _ _).1 (n3 y y1 ((mem y).2 (.inr y2)))
    have hn : n.key ≤ x.key ∨ n.key ≤ y.key := ((mem n).1 n2).imp (fun h => (vle_iff _ _).1 (x3 n n1 h)) (fun h => (vle_iff _ _).1 (y3 n n1 h))
    refine ⟨n, rfl, fun hle => ?_, fun hle => ?_⟩ <;> rw [vle_iff] at hle <;> rw [veq_iff]
    · exact le_antisymm (hn.elim id (fun h => h.trans hle)) nx
    · exact le_antisymm (hn.elim (fun h => h.trans hle) id) ny

example : (VSet.item (exRange (some [1]) (some [2]))).unionWith 1 (.item (exRange (some [2]) (some [3]))) = .ok (.item (exRange (some [1]) (some [3]))) ∧
    Choosing.latest (.item (exRange (some [1]) (some [3]))) [exVersion [1], exVersion [2, 5], exVersion [4]] = some (exVersion [2, 5]) := by decide +kernel

/-- C116. The latest version in a set that a second set contains too is the latest version in the intersection. -/
theorem C116_latest_intersection (a b i : VSet) (ha : a.Normal) (hb : b.Normal) (lim : Nat) (h : a.intersection lim b = .ok i)
    (l : List Version) (m : Version) (hm : Choosing.latest a l = some m) (hb' : b.contains m = true) :
    ∃ n, Choosing.latest i l = some n ∧ n ==ₚ m := by
  obtain ⟨s, h1, h2⟩ := C20_intersection_exact a b ha hb
  have := (h1 lim).symm.trans h
  cases this
  obtain ⟨m1, m2, m3⟩ := (C116_latest a l).2 m hm
  refine latest_of m1 ((vset_contains_iff_mem _ _).1 ((h2 m).2 ⟨m2, (vset_contains_iff_mem _ _).1 hb'⟩)) fun v hv hvm => ?_
  exact m3 v hv ((h2 v).1 ((vset_contains_iff_mem _ _).2 hvm)).1

example : (VSet.item (exRange (some [1]) (some [3]))).intersection 0 (.item (exRange (some [2]) (some [4]))) = .ok (.item (exRange (some [2]) (some [3]))) ∧
    Choosing.latest (.item (exRange (some [2]) (some [3]))) [exVersion [1], exVersion [2, 5], exVersion [4]] = some (exVersion [2, 5]) := by decide +kernel

/-- C116. Filtering with the specifier of a string and with its set gives the same list, without exceptions. -/
theorem C116_accepted (lim : Nat) (r : PyStr) (s : Specifier) (x : VSet) (hs : Specifier.parse r = .ok s) (hx : VSet.parse lim r = .ok x)
    (l : List Version) : Choosing.acceptedOf s l = .ok (l.filter x.contains) := by
  induction l with
  | nil => rfl
  | cons v l ih =>
    have hb : s.accepts v = .ok (x.contains v) := by
      obtain ⟨b, hb⟩ := C32_accepts_total s (C52_valid r s hs) v
      rw [hb]
      refine congrArg _ ?_
      rw [Bool.eq_iff_iff, vset_contains_iff_mem, parsed_mem hx hs v, hb]
      simp
    rw [acceptedOf, hb, ih, List.filter_cons]
    rfl

example : Choosing.acceptedOf (.one ⟨.caret, exVersion [1, 2]⟩) [exVersion [1, 1], exVersion [1, 9], exVersion [2]] = .ok [exVersion [1, 9]] := by
  decide +kernel

/-! ### sets of versions -/

/-- C116. `set(versions)`: members of the list, no two of them equal, and every version of the list is equal to one. -/
theorem C116_set (H : Hasher) (l : List Version) :
    (∀ v ∈ Choosing.pySet H l, v ∈ l) ∧ (Choosing.pySet H l).Pairwise (fun a b => ¬ a ==ₚ b) ∧ ∀ v ∈ l, ∃ w ∈ Choosing.pySet H l, w ==ₚ v := by
  unfold Choosing.pySet
  have main : ∀ (l acc : List Version), acc.Pairwise (fun a b => ¬ a ==ₚ b) →
      let r := l.foldl (fun acc v => if acc.any (fun w => decide (H.version w = H.version v) && PyCmp.eq w v) then acc else acc ++ [v]) acc
      (∀ v ∈ r, v ∈ acc ∨ v ∈ l) ∧ r.Pairwise (fun a b => ¬ a ==ₚ b) ∧ (∀ v ∈ acc, v ∈ r) ∧ ∀ v ∈ l, ∃ w ∈ r, w ==ₚ v := by
    intro l
    induction l with
    | nil => intro acc h; exact ⟨fun v hv => .inl hv, h, fun v hv => hv, by simp⟩
    | cons v l ih =>
      intro acc hacc
      dsimp only
      rw [List.foldl_cons]
      have same : ∀ w : Version, H.version w = H.version v := fun _ => rfl
      by_cases h : acc.any (fun w => decide (H.version w = H.version v) && PyCmp.eq w v) = true
      · rw [if_pos h]
        obtain ⟨i1, i2, i3, i4⟩ := ih acc hacc
        refine ⟨fun w hw => (i1 w hw).imp_right (List.mem_cons_of_mem _), i2, i3, fun w hw => ?_⟩
        rcases List.mem_cons.1 hw with rfl | hw
        · obtain ⟨u, hu, e⟩ := List.any_eq_true.1 h
          exact ⟨u, i3 u hu, (Bool.and_eq_true_iff.1 e).2⟩
        · exact i4 w hw
      · rw [if_neg h]
        have hp : (acc ++ [v]).Pairwise (fun a b => ¬ a ==ₚ b) := by
          rw [List.pairwise_append]
          refine ⟨hacc, by simp, fun a ha b hb => ?_⟩
          rw [List.mem_singleton.1 hb]
          intro e
          exact h (List.any_eq_true.2 ⟨a, ha, by simp [same a, e]⟩)
        obtain ⟨i1, i2, i3, i4⟩ := ih (acc ++ [v]) hp
        refine ⟨fun w hw => ?_, i2, fun w hw => i3 w (by simp [hw]), fun w hw => ?_⟩
        · rcases i1 w hw with hw | hw
          · rcases List.mem_append.1 hw with hw | hw
            · exact .inl hw
            · exact .inr (by rw [List.mem_singleton.1 hw]; simp)
          · exact .inr (List.mem_cons_of_mem _ hw)
        · rcases List.mem_cons.1 hw with rfl | hw
          · exact ⟨w, i3 w (by simp), (veq_iff _ _).2 rfl⟩
          · exact i4 w hw
  obtain ⟨h1, h2, -, h4⟩ := main l [] .nil
  exact ⟨fun v hv => (h1 v hv).resolve_left (by simp), h2, h4⟩

example (H : Hasher) : Choosing.pySet H [exVersion [2], exVersion [2, 0, 0]] = [exVersion [2]] := by
  have h2 : PyCmp.eq (exVersion [2]) (exVersion [2, 0, 0]) = true := by decide +kernel
  simp [Choosing.pySet, Hasher.version, h2]

/-- C116. The number of versions in `set(versions)` does not depend on the order, nor on the hashes of the process. -/
theorem C116_set_size (H H' : Hasher) (l k : List Version) (h : l.Perm k) :
    (Choosing.pySet H l).length = (Choosing.pySet H' k).length := by
  have nodup : ∀ {r : List Version}, r.Pairwise (fun a b => ¬ a ==ₚ b) → (r.map Version.key).Nodup := by
    intro r hr
    rw [List.Nodup, List.pairwise_map]
    exact hr.imp fun h e => h ((veq_iff _ _).2 e)
  obtain ⟨a1, a2, a3⟩ := C116_set H l
  obtain ⟨b1, b2, b3⟩ := C116_set H' k
  have hp : ((Choosing.pySet H l).map Version.key).Perm ((Choosing.pySet H' k).map Version.key) := by
    rw [List.perm_ext_iff_of_nodup (nodup a2) (nodup b2)]
    intro x
    constructor
    · intro hx
      obtain ⟨v, hv, rfl⟩ := List.mem_map.1 hx
      obtain ⟨w, hw, e⟩ := b3 v (h.mem_iff.1 (a1 v hv))
      exact List.mem_map.2 ⟨w, hw, (veq_iff _ _).1 e⟩
    · intro hx
      obtain ⟨v, hv, rfl⟩ := List.mem_map.1 hx
      obtain ⟨w, hw, e⟩ := a3 v (h.mem_iff.2 (b1 v hv))
      exact List.mem_map.2 ⟨w, hw, (veq_iff _ _).1 e⟩
  simpa using hp.length_eq

example (H : Hasher) : Choosing.pySet H [exVersion [1], exVersion [2], exVersion [1, 0]] = [exVersion [1], exVersion [2]] := by
  have h1 : PyCmp.eq (exVersion [1]) (exVersion [2]) = false := by decide +kernel
  have h2 : PyCmp.eq (exVersion [1]) (exVersion [1, 0]) = true := by decide +kernel
  simp [Choosing.pySet, Hasher.version, h1, h2]

end Verif
