import Mathlib.Data.List.Perm.Subperm
import Verif.Spec.Simplify
import Verif.Proofs.Specifiers
/-!
# The edges of sets
-/

namespace Verif
open scoped Verif

/-- At `c`, the set changes: there are cuts as close below `c` as you like where it differs from what it is at `c`. -/
def Edge (S : Cut → Prop) (c : Cut) : Prop := c ≠ ⊥ ∧ c ≠ ⊤ ∧ ∀ d < c, ∃ e, d ≤ e ∧ e < c ∧ ¬ (S e ↔ S c)

theorem edge_congr {S T : Cut → Prop} (h : ∀ c, S c ↔ T c) {c : Cut} : Edge S c ↔ Edge T c := by
  simp only [Edge, h]

theorem edge_combine {S T R : Cut → Prop} (F : Prop → Prop → Prop) (h : ∀ c, c ≠ ⊤ → (R c ↔ F (S c) (T c))) {c : Cut}
    (hc : Edge R c) : Edge S c ∨ Edge T c := by
  obtain ⟨h1, h2, h3⟩ := hc
  by_contra hno
  rw [not_or] at hno
  have key : ∀ S : Cut → Prop, ¬ Edge S c → ∃ d < c, ∀ e, d ≤ e → e < c → (S e ↔ S c) := by
    intro S hS
    by_contra hcon
    refine hS ⟨h1, h2, fun d hd => ?_⟩
    by_contra hne
    refine hcon ⟨d, hd, fun e he hec => ?_⟩
    by_contra hh
    exact hne ⟨e, he, hec, hh⟩
  obtain ⟨d, hd, kd⟩ := key S hno.1
  obtain ⟨d', hd', kd'⟩ := key T hno.2
  obtain ⟨e, he, hec, hne⟩ := h3 (max d d') (max_lt hd hd')
  have he := And.intro ((le_max_left d d').trans he) ((le_max_right d d').trans he)
  have e1 := propext (kd e he.1 hec)
  have e2 := propext (kd' e he.2 hec)
  refine hne ?_
  rw [h e (lt_of_lt_of_le hec le_top).ne, h c h2, e1, e2]

theorem edge_const {S : Cut → Prop} (h : ∀ c d, c ≠ ⊤ → d ≠ ⊤ → (S c ↔ S d)) (c : Cut) : ¬ Edge S c := by
  rintro ⟨h1, h2, h3⟩
  obtain ⟨e, -, he, hne⟩ := h3 ⊥ (bot_lt_iff_ne_bot.2 h1)
  exact hne (h _ _ (lt_of_lt_of_le he le_top).ne h2)

/-- The ends of the items of a list, without infinities. -/
def Item.ends (i : Item) : List Cut := (if i.lo = ⊥ then [] else [i.lo]) ++ if i.hi = ⊤ then [] else [i.hi]
def endsOf (l : List Item) : List Cut := l.flatMap Item.ends

theorem edge_item (i : Item) {c : Cut} (h : Edge (fun c => i.lo ≤ c ∧ c < i.hi) c) : c ∈ i.ends := by
  obtain ⟨h1, h2, h3⟩ := h
  by_contra hno
  have n1 : c ≠ i.lo := by
    rintro rfl; exact hno (by simp [Item.ends, h1])
  have n2 : c ≠ i.hi := by
    rintro rfl; exact hno (by simp [Item.ends, h2])
  rcases lt_or_gt_of_ne n1 with hlt | hgt
  · obtain ⟨e, -, he, hne⟩ := h3 ⊥ (bot_lt_iff_ne_bot.2 h1)
    refine hne ⟨fun h => absurd h.1 (not_le.2 (he.trans hlt)), fun h => absurd h.1 (not_le.2 hlt)⟩
  · rcases lt_or_gt_of_ne n2 with hlt' | hgt'
    · obtain ⟨e, h4, he, hne⟩ := h3 i.lo hgt
      exact hne ⟨fun _ => ⟨hgt.le, hlt'⟩, fun _ => ⟨h4, he.trans hlt'⟩⟩
    · obtain ⟨e, h4, he, hne⟩ := h3 i.hi hgt'
      exact hne ⟨fun h => absurd h.2 (not_lt.2 h4), fun h => absurd h.2 (not_lt.2 hgt'.le)⟩

theorem edge_cov (l : List Item) {c : Cut} (h : Edge (Cov l) c) : c ∈ endsOf l := by
  induction l with
  | nil => exact absurd h (edge_const (by simp) c)
  | cons i l ih =>
    rcases edge_combine (S := fun c => i.lo ≤ c ∧ c < i.hi) (T := Cov l) (· ∨ ·) (fun c _ => cov_cons i l c) h with h | h
    · simp [endsOf, edge_item i h]
    · exact List.mem_append_right _ (ih h)

theorem gaps_apart {l : List Item} (hg : Gaps l) {i j : Item} (hi : i ∈ l) (hj : j ∈ l) (h : i ≠ j) :
    i.hi < j.lo ∨ j.hi < i.lo := by
  induction l with
  | nil => simp at hi
  | cons k l ih =>
    rcases List.mem_cons.1 hi with rfl | hi' <;> rcases List.mem_cons.1 hj with rfl | hj'
    · exact absurd rfl h
    · exact .inl (hg.head j hj')
    · exact .inr (hg.head i hi')
    · exact ih (List.Pairwise.of_cons hg) hi' hj'

theorem not_cov_hi {l : List Item} (hn : AllNormal l) (hg : Gaps l) {i : Item} (hi : i ∈ l) : ¬ Cov l i.hi := by
  rintro ⟨j, hj, h1, h2⟩
  by_cases hij : i = j
  · subst hij; order
  · have := (hn i hi).lo_lt_hi
    rcases gaps_apart hg hi hj hij with h | h <;> order

theorem cov_edge {l : List Item} (hn : AllNormal l) (hg : Gaps l) {c : Cut} (h : c ∈ endsOf l) : Edge (Cov l) c := by
  simp only [endsOf, List.mem_flatMap, Item.ends, List.mem_append] at h
  obtain ⟨i, hi, h | h⟩ := h
  · split at h
    · simp at h
    · rename_i hb
      rw [List.mem_singleton] at h
      subst h
      have hlt := (hn i hi).lo_lt_hi
      have hcov : Cov l i.lo := ⟨i, hi, le_rfl, hlt⟩
      refine ⟨hb, (lt_of_lt_of_le hlt le_top).ne, fun d hd => ?_⟩
      by_cases hd' : Cov l d
      · obtain ⟨j, hj, h1, h2⟩ := hd'
        have hji : j ≠ i := by rintro rfl; order
        refine ⟨j.hi, h2.le, ?_, fun h => not_cov_hi hn hg hj (h.2 hcov)⟩
        rcases gaps_apart hg hj hi hji with h | h
        · exact h
        · order
      · exact ⟨d, le_rfl, hd, fun h => hd' (h.2 hcov)⟩
  · split at h
    · simp at h
    · rename_i hb
      rw [List.mem_singleton] at h
      subst h
      have hlt := (hn i hi).lo_lt_hi
      refine ⟨(lt_of_le_of_lt bot_le hlt).ne', hb, fun d hd => ⟨max d i.lo, le_max_left _ _, max_lt hd hlt, fun h => ?_⟩⟩
      exact not_cov_hi hn hg hi (h.1 ⟨i, hi, le_max_right _ _, max_lt hd hlt⟩)

theorem ends_bounds {i : Item} (h : i.Normal) {c : Cut} (hc : c ∈ i.ends) : i.lo ≤ c ∧ c ≤ i.hi := by
  have := h.lo_lt_hi
  simp only [Item.ends, List.mem_append] at hc
  rcases hc with hc | hc <;> split at hc <;> simp at hc <;> subst hc <;> exact ⟨by order, by order⟩

theorem ends_nodup {l : List Item} (hn : AllNormal l) (hg : Gaps l) : (endsOf l).Nodup := by
  induction l with
  | nil => simp [endsOf]
  | cons i l ih =>
    have hlt := hn.head.lo_lt_hi
    unfold endsOf
    rw [List.flatMap_cons]
    refine List.nodup_append.2 ⟨?_, ih hn.tail (List.Pairwise.of_cons hg), fun a ha b hb => ?_⟩
    · unfold Item.ends
      split <;> split <;> simp [hlt.ne]
    · obtain ⟨j, hj, hb⟩ := List.mem_flatMap.1 hb
      have h1 := (ends_bounds hn.head ha).2
      have h2 := (ends_bounds (hn.tail j hj) hb).1
      have h3 := hg.head j hj
      exact (lt_of_le_of_lt h1 (lt_of_lt_of_le h3 h2)).ne

/-- The number of ends is determined by the set. -/
theorem ends_le {l : List Item} (hn : AllNormal l) (hg : Gaps l) {L : List Cut} (h : ∀ c, Edge (Cov l) c → c ∈ L) :
    (endsOf l).length ≤ L.length :=
  (List.Nodup.subperm (ends_nodup hn hg) (fun c hc => h c (cov_edge hn hg hc))).length_le

namespace Specifier

theorem operatorsAll_eq (l : List Specifier) : operatorsAll l = (l.map operators).sum := by
  induction l with
  | nil => rfl
  | cons s l ih => simp [operatorsAll, ih]

theorem operators_ofItem (i : Item) : (ofItem i).operators ≤ i.ends.length := by
  have hlo : ∀ v a, (cutAt v a : Cut) ≠ ⊥ := fun v a => (bot_lt_cutAt v a).ne'
  have hhi : ∀ v a, (cutAt v a : Cut) ≠ ⊤ := fun v a => (cutAt_lt_top v a).ne
  cases i with
  | point v =>
    simp [ofItem, operators, Item.ends, Item.lo, Item.hi, Item.min, Item.max, Item.includeMin, Item.includeMax, Item.fields,
      loOf, hiOf, hlo, hhi]
  | range r =>
    obtain ⟨mn, mx, x, y⟩ := r
    cases mn <;> cases mx <;>
      simp [ofItem, operators, operatorsAll, Item.ends, Item.lo, Item.hi, Item.min, Item.max, Item.includeMin,
        Item.includeMax, Item.fields, loOf, hiOf, hlo, hhi]

theorem ends_length (i : Item) : i.ends.length ≤ 2 := by
  unfold Item.ends; split <;> split <;> simp

/-- The specifier of a set has at most as many operators as the set has ends. -/
theorem operators_fromSet {x : VSet} (hx : x.Normal) {lim : Nat} {t : Specifier} (h : fromSet lim x = .ok t) :
    t.operators ≤ (endsOf x.extract).length := by
  rcases fromSet_view hx with ⟨rfl, f⟩ | ⟨i, rfl, f⟩ | ⟨v, h2, hc, f⟩ | ⟨-, -, f⟩ <;> rw [f lim] at h <;> cases h
  · simp [operators]
  · simpa [endsOf, VSet.extract] using operators_ofItem i
  · simp only [operators]
    match hl : x.extract, h2 with
    | i :: j :: l, _ =>
      have hg := hx.gaps
      rw [hl] at hg
      have := hg.head j (by simp)
      have hne : i.hi ≠ ⊤ := (lt_of_lt_of_le this le_top).ne
      simp [endsOf, Item.ends, hne]
      omega
  · simp only [operators, operatorsAll_eq]
    generalize x.extract = l
    induction l with
    | nil => simp
    | cons i l ih =>
      have := operators_ofItem i
      simp only [List.map_cons, List.sum_cons, endsOf, List.flatMap_cons, List.length_append]
      unfold endsOf at ih
      omega

end Specifier

/-- The edges are among at most `n` cuts. -/
def FewEdges (n : Nat) (x : VSet) : Prop := ∃ L : List Cut, L.length ≤ n ∧ ∀ c, Edge x.Cov c → c ∈ L

theorem few_item (i : Item) : FewEdges 2 (.item i) :=
  ⟨i.ends, Specifier.ends_length i, fun c hc => by simpa [endsOf, VSet.extract] using edge_cov _ hc⟩

theorem few_const {x : VSet} (h : ∀ c d, c ≠ ⊤ → d ≠ ⊤ → (x.Cov c ↔ x.Cov d)) (n : Nat) : FewEdges n x :=
  ⟨[], Nat.zero_le _, fun c hc => absurd hc (edge_const h c)⟩

theorem few_combine {m n : Nat} {x y z : VSet} (F : Prop → Prop → Prop) (h : ∀ c, c ≠ ⊤ → (z.Cov c ↔ F (x.Cov c) (y.Cov c)))
    (hx : FewEdges m x) (hy : FewEdges n y) : FewEdges (m + n) z := by
  obtain ⟨L, l1, l2⟩ := hx
  obtain ⟨M, m1, m2⟩ := hy
  refine ⟨L ++ M, by simp; omega, fun c hc => List.mem_append.2 ?_⟩
  exact (edge_combine F h hc).imp (l2 c) (m2 c)

theorem few_complement {n : Nat} {x z : VSet} (hx : x.Normal) {lim : Nat} (h : x.complement lim = .ok z) (hf : FewEdges n x) :
    FewEdges n z := by
  obtain ⟨s, s1, -, s3⟩ := complement_spec hx
  rw [s1] at h; cases h
  have := few_combine (fun p _ => ¬ p) (z := z) (y := .empty) (fun c hc => by rw [s3]; simp [hc]) hf
    (few_const (fun c d _ _ => by simp [VSet.Cov, VSet.extract]) 0)
  simpa using this

theorem few_mkRange {mn mx : Option Version} {a b : Bool} {x : VSet}
    (h : (do .ok (.item (← Item.mkRange mn mx a b)) : Except PyErr VSet) = .ok x) : FewEdges 2 x := by
  simp only [bind, Except.bind] at h
  split at h
  · cases h
  · cases h; exact few_item _

theorem normal_of_toSet {o : Operator} (hv : o.version.Valid) (ht : o.type = .tildeEqual → 2 ≤ o.version.release.precision)
    {lim : Nat} {x : VSet} (h : o.toSet lim = .ok x) : x.Normal := by
  rcases op_view hv ht with ⟨s, h1, h2, -⟩ | ⟨h1, -⟩ <;> rw [h1] at h <;> cases h
  exact h2

theorem few_operator {o : Operator} (hv : o.version.Valid) (ht : o.type = .tildeEqual → 2 ≤ o.version.release.precision)
    {lim : Nat} {x : VSet} (h : o.toSet lim = .ok x) : FewEdges 2 x := by
  obtain ⟨t, a⟩ := o
  have hnext : ∀ {f : Version → Except PyErr Version} {y : VSet},
      (do .ok (.item (← Item.mkRange (some a) (some (← f a)) true false)) : Except PyErr VSet) = .ok y → FewEdges 2 y := by
    intro f y hy
    cases hf : f a with
    | error e => simp [hf, bind, Except.bind] at hy
    | ok w => exact few_mkRange (by simpa [hf, bind, Except.bind] using hy)
  have hwild : ∀ {y : VSet}, Version.translateWildcardEqual a = .ok y → FewEdges 2 y := by
    intro y hy
    unfold Version.translateWildcardEqual at hy
    cases hf : a.nextWildcardBreaking with
    | error e => simp [hf, bind, Except.bind] at hy
    | ok w => cases w with
      | none => exact few_mkRange (by simpa [hf, bind, Except.bind] using hy)
      | some w => exact few_mkRange (by simpa [hf, bind, Except.bind] using hy)
  cases t with
  | tildeEqual => exact hnext h
  | doubleEqual => cases h; exact few_item _
  | notEqual =>
    simp only [Operator.toSet, OpType.translate, Version.translateNotEqual, bind, Except.bind] at h
    cases hc : (Version.translateEqual a).complement lim with
    | error e => simp [hc] at h
    | ok z =>
      have := few_complement (x := .item (.point a)) (point_normal a) hc (few_item _)
      rw [hc] at h
      cases z <;> cases h
      exact this
  | less => exact few_mkRange h
  | lessOrEqual => exact few_mkRange h
  | greater => exact few_mkRange h
  | greaterOrEqual => exact few_mkRange h
  | caret => exact hnext h
  | equal => cases h; exact few_item _
  | tilde => exact hnext h
  | wildcardDoubleEqual => exact hwild h
  | wildcardEqual => exact hwild h
  | wildcardNotEqual =>
    simp only [Operator.toSet, OpType.translate, Version.translateWildcardNotEqual, bind, Except.bind] at h
    cases hy : Version.translateWildcardEqual a with
    | error e => simp [hy] at h
    | ok y =>
      have hn : y.Normal := normal_of_toSet (o := ⟨.wildcardEqual, a⟩) hv (by simp) (lim := lim) hy
      cases hc : y.complement lim with
      | error e => simp [hy, hc] at h
      | ok z =>
        have := few_complement hn hc (hwild hy)
        simp only [hy, hc] at h
        cases z <;> cases h <;> exact this

namespace Specifier

theorem few_reduceAll {lim : Nat} {l : List Specifier} (hv : ∀ s ∈ l, s.Valid)
    (ih : ∀ s ∈ l, ∀ x, toSet lim s = .ok x → FewEdges (2 * s.operators) x) {n : Nat} {acc x : VSet} (hn : acc.Normal)
    (hf : FewEdges n acc) (h : reduceAll lim acc l = .ok x) : FewEdges (n + 2 * operatorsAll l) x := by
  induction l generalizing acc n with
  | nil => simp only [reduceAll, Except.ok.injEq] at h; subst h; simpa [operatorsAll] using hf
  | cons s l ihl =>
    simp only [reduceAll, bind, Except.bind] at h
    cases hy : toSet lim s with
    | error e => simp [hy] at h
    | ok y =>
      have y1 := (toSet_means (hv s (by simp)) lim y hy).1
      obtain ⟨z, z1, z2, z3⟩ := intersection_spec hn y1
      simp only [hy, z1] at h
      have hz := few_combine (z := z) (· ∧ ·) (fun c _ => z3 c) hf (ih s (by simp) y hy)
      have := ihl (fun t ht => hv t (by simp [ht])) (fun t ht => ih t (by simp [ht])) z2 hz h
      simp only [operatorsAll]
      convert this using 1
      omega

theorem few_reduceAny {lim : Nat} {l : List Specifier} (hv : ∀ s ∈ l, s.Valid)
    (ih : ∀ s ∈ l, ∀ x, toSet lim s = .ok x → FewEdges (2 * s.operators) x) {n : Nat} {acc x : VSet} (hn : acc.Normal)
    (hf : FewEdges n acc) (h : reduceAny lim acc l = .ok x) : FewEdges (n + 2 * operatorsAll l) x := by
  induction l generalizing acc n with
  | nil => simp only [reduceAny, Except.ok.injEq] at h; subst h; simpa [operatorsAll] using hf
  | cons s l ihl =>
    simp only [reduceAny, bind, Except.bind] at h
    cases hy : toSet lim s with
    | error e => simp [hy] at h
    | ok y =>
      have y1 := (toSet_means (hv s (by simp)) lim y hy).1
      cases hz : acc.unionWith lim y with
      | error e => simp [hy, hz] at h
      | ok z =>
        obtain ⟨z2, z3⟩ := unionWith_ok hn y1 hz
        simp only [hy, hz] at h
        have hz := few_combine (z := z) (· ∨ ·) (fun c _ => z3 c) hf (ih s (by simp) y hy)
        have := ihl (fun t ht => hv t (by simp [ht])) (fun t ht => ih t (by simp [ht])) z2 hz h
        simp only [operatorsAll]
        convert this using 1
        omega

/-- The set of a specifier has at most two edges for each operator. -/
theorem few_toSet {s : Specifier} (hs : s.Valid) : ∀ lim x, toSet lim s = .ok x → FewEdges (2 * s.operators) x := by
  induction hs with
  | never =>
    intro lim x h
    simp only [toSet, Except.ok.injEq] at h; subst h
    exact few_const (fun c d _ _ => by simp [VSet.Cov, VSet.extract]) _
  | always =>
    intro lim x h
    simp only [toSet, Except.ok.injEq] at h; subst h
    exact few_const (fun c d hc hd => by simp [universal_cov, hc, hd]) _
  | one hv ht =>
    intro lim x h
    simp only [toSet] at h
    simpa [operators] using few_operator hv ht h
  | @any l hl hv ih =>
    intro lim x h
    match l, hl, hv, ih, h with
    | s :: l, _, hv, ih, h =>
      simp only [toSet, bind, Except.bind] at h
      cases hy : toSet lim s with
      | error e => simp [hy] at h
      | ok y =>
        simp only [hy] at h
        have := few_reduceAny (fun t ht => hv t (by simp [ht])) (fun t ht => ih t (by simp [ht]) lim)
          (toSet_means (hv s (by simp)) lim y hy).1 (ih s (by simp) lim y hy) h
        simp only [operators, operatorsAll]
        convert this using 1
        omega
  | @all l hl hv ih =>
    intro lim x h
    match l, hl, hv, ih, h with
    | s :: l, _, hv, ih, h =>
      simp only [toSet, bind, Except.bind] at h
      cases hy : toSet lim s with
      | error e => simp [hy] at h
      | ok y =>
        simp only [hy] at h
        have := few_reduceAll (fun t ht => hv t (by simp [ht])) (fun t ht => ih t (by simp [ht]) lim)
          (toSet_means (hv s (by simp)) lim y hy).1 (ih s (by simp) lim y hy) h
        simp only [operators, operatorsAll]
        convert this using 1
        omega

/-! ### the shape of what the converter returns -/

theorem ofItem_piece {i : Item} : ofItem i = always ∨ (ofItem i).IsPiece := by
  cases i with
  | point v => exact .inr (.inl rfl)
  | range r =>
    obtain ⟨mn, mx, x, y⟩ := r
    cases mn <;> cases mx
    · exact .inl rfl
    · refine .inr (.inr (.inr (.inl ?_)))
      cases y <;> simp [ofItem, IsUpperBound]
    · refine .inr (.inr (.inl ?_))
      cases x <;> simp [ofItem, IsLowerBound]
    · refine .inr (.inr (.inr (.inr ⟨_, _, rfl, ?_, ?_⟩)))
      · cases x <;> simp [IsLowerBound]
      · cases y <;> simp [IsUpperBound]

theorem ofItem_always {i : Item} (h : ofItem i = always) : i.lo = ⊥ ∧ i.hi = ⊤ := by
  cases i with
  | point v => cases h
  | range r =>
    obtain ⟨mn, mx, x, y⟩ := r
    cases mn <;> cases mx <;> first | exact ⟨rfl, rfl⟩ | cases h

theorem fromSet_simple {x : VSet} (hx : x.Normal) {lim : Nat} {t : Specifier} (h : fromSet lim x = .ok t) : t.IsSimple := by
  rcases fromSet_view hx with ⟨rfl, f⟩ | ⟨i, rfl, f⟩ | ⟨v, h2, hc, f⟩ | ⟨h2, -, f⟩ <;> rw [f lim] at h <;> cases h
  · exact .inl rfl
  · rcases ofItem_piece (i := i) with h | h
    · exact .inr (.inl h)
    · exact .inr (.inr (.inr (.inl h)))
  · exact .inr (.inr (.inl rfl))
  · refine .inr (.inr (.inr (.inr ⟨_, rfl, by simpa using h2, fun t ht => ?_⟩)))
    obtain ⟨i, hi, rfl⟩ := List.mem_map.1 ht
    rcases ofItem_piece (i := i) with h | h
    · exfalso
      obtain ⟨e1, e2⟩ := ofItem_always h
      have hall : ∀ j ∈ x.extract, j = i := by
        intro j hj
        by_contra hne
        rcases gaps_apart hx.gaps hj hi hne with hh | hh
        · rw [e1] at hh; exact not_lt_bot hh
        · rw [e2] at hh; exact not_top_lt hh
      have hg := hx.gaps
      have hn := hx.allNormal
      match hl : x.extract, h2 with
      | a :: b :: l, _ =>
        rw [hl] at hall hg hn
        have := hg.head b (by simp)
        rw [hall a (by simp), hall b (by simp), e1] at this
        exact not_lt_bot this
    · exact h

end Specifier

end Verif
