import Verif.Proofs.LooseUnions
import Verif.Props.Sets
/-!
# C113: unions built by hand

`VersionUnion(items)` and `VersionUnion.of_unchecked(*items)` (/repo/versions/version_sets.py 1019-1047) keep the items as they
are given, in any order and however they overlap. The other properties of sets are about unions as `VersionUnion.of` makes
them. Here the items are only supposed to be ranges that are not empty or single versions.
-/
set_option linter.unusedSimpArgs false

namespace Verif
open scoped Verif

/-- The set may be a union built by hand, of items that are each in normal form. -/
def VSet.Loose : VSet → Prop
  | .empty => True
  | .item i => i.Normal
  | .union items => ∀ i ∈ items, i.Normal

instance (s : VSet) : Decidable s.Loose := by cases s <;> unfold VSet.Loose <;> infer_instance

theorem VSet.Loose.items {s : VSet} (h : s.Loose) : AllNormal s.extract := by
  cases s with
  | empty => exact allNormal_nil
  | item i => exact allNormal_single h
  | union items => exact h

theorem VSet.Normal.loose {s : VSet} (h : s.Normal) : s.Loose := by
  cases s with
  | empty => trivial
  | item i => exact h
  | union items => exact h.allNormal

example : (VSet.union [exPoint [3], exRange (some [1]) (some [4]), exPoint [1]]).Loose ∧
    ¬ (VSet.union [exPoint [3], exRange (some [1]) (some [4]), exPoint [1]]).Normal := by decide +kernel

/-- C113. `contains` is exact for every set, in normal form or not. -/
theorem C113_contains (s : VSet) (v : Version) : s.contains v = true ↔ ∃ i, s.Has i ∧ i.Mem v := by
  rw [vset_contains_iff_mem, mem_iff_cov]
  constructor
  · rintro ⟨i, hi, h⟩
    exact ⟨i, (has_iff _ _).2 hi, (mem_iff_cut i v).2 h⟩
  · rintro ⟨i, hi, h⟩
    exact ⟨i, (has_iff _ _).1 hi, (mem_iff_cut i v).1 h⟩

example : (VSet.union [exPoint [3], exRange (some [1]) (some [4]), exPoint [1]]).contains (exVersion [2]) = true ∧
    (VSet.union [exPoint [3], exRange (some [1]) (some [4]), exPoint [1]]).contains (exVersion [4]) = false := by decide +kernel

/-! ## Unions are repaired -/

/-- C113. Whatever `VersionUnion.of` returns for sets among which there may be unions built by hand is in normal form and has
exactly the versions of the sets. -/
theorem C113_of (lim : Nat) (sets : List VSet) (s : VSet) (hs : ∀ x ∈ sets, x.Loose) (h : VSet.unionOf lim sets = .ok s) :
    s.Normal ∧ ∀ v, s.Mem v ↔ ∃ x ∈ sets, x.Mem v := by
  obtain ⟨h1, h2⟩ := unionOf_loose (fun i hi => by
    obtain ⟨x, hx, hi⟩ := List.mem_flatMap.1 hi
    exact (hs x hx).items i hi) h
  refine ⟨h1, fun v => ?_⟩
  rw [mem_iff_cov, h2]
  simp only [mem_iff_cov, Cov, List.mem_flatMap]
  constructor
  · rintro ⟨i, ⟨x, hx, hi⟩, h⟩; exact ⟨x, hx, i, hi, h⟩
  · rintro ⟨x, hx, i, hi, h⟩; exact ⟨i, ⟨x, hx, hi⟩, h⟩

example : VSet.unionOf 5 [.union [exPoint [3], exRange (some [1]) (some [2]), exPoint [1], exRange (some [2]) (some [3])]] =
    .ok (.item (exRange (some [1]) (some [3]) true true)) := by decide +kernel

/-- C113. Whatever `union` returns has exactly the versions of either side; it is in normal form unless it is one of the two sets
itself. -/
theorem C113_union (lim : Nat) (a b s : VSet) (ha : a.Loose) (hb : b.Loose) (h : a.unionWith lim b = .ok s) :
    (s.Normal ∨ s = a ∨ s = b) ∧ ∀ v, s.Mem v ↔ a.Mem v ∨ b.Mem v := by
  have two : ∀ {x y : VSet}, x.Loose → y.Loose → VSet.unionOf lim [x, y] = .ok s →
      s.Normal ∧ ∀ v, s.Mem v ↔ x.Mem v ∨ y.Mem v := by
    intro x y hx hy h
    obtain ⟨h1, h2⟩ := C113_of lim [x, y] s (by simp [hx, hy]) h
    exact ⟨h1, fun v => by simp [h2 v]⟩
  cases a with
  | empty => cases h; exact ⟨.inr (.inr rfl), fun v => by simp [VSet.Mem]⟩
  | union items =>
    obtain ⟨h1, h2⟩ := two ha hb h
    exact ⟨.inl h1, h2⟩
  | item i => cases b with
    | empty =>
      simp only [VSet.unionWith, Except.ok.injEq] at h
      subst h
      exact ⟨.inr (.inl rfl), fun v => by simp [VSet.Mem]⟩
    | item j =>
      obtain ⟨h1, h2⟩ := unionWith_ok (a := .item i) (b := .item j) ha hb h
      refine ⟨.inl h1, fun v => ?_⟩
      rw [mem_iff_cov, mem_iff_cov, mem_iff_cov]
      exact h2 _
    | union items => cases i with
      | range r =>
        obtain ⟨h1, h2⟩ := two hb ha h
        exact ⟨.inl h1, fun v => by rw [h2, or_comm]⟩
      | point p =>
        simp only [VSet.unionWith] at h
        split at h
        · next hc =>
          cases h
          refine ⟨.inr (.inr rfl), fun v => ⟨.inr, ?_⟩⟩
          rintro (h | h)
          · rw [vset_contains_iff_mem] at hc
            rw [mem_iff_cov] at hc h ⊢
            have e : cut v = cut p := by
              have h : p ==ₚ v := by
                rw [← mem_iff_cov] at h; exact h
              unfold cut cutAt
              rw [← (show p.key = v.key from (veq_iff _ _).1 h)]
            rwa [e]
          · exact h
        · obtain ⟨h1, h2⟩ := two (x := .item (.point p)) trivial hb h
          exact ⟨.inl h1, h2⟩

example : (VSet.union [exPoint [3], exPoint [1]]).unionWith 5 (.item (exPoint [2])) =
      .ok (.union [exPoint [1], exPoint [2], exPoint [3]]) ∧
    (VSet.item (exPoint [1])).unionWith 5 (.union [exPoint [3], exPoint [1]]) = .ok (.union [exPoint [3], exPoint [1]]) := by
  decide +kernel

/-! ## Questions: `True` can be trusted -/

/-- C113. If `a.includes(b)` then every version of `b` is in `a`. -/
theorem C113_includes (a b : VSet) (ha : a.Loose) (hb : b.Loose) (h : a.includes b = true) (v : Version) (hv : b.Mem v) :
    a.Mem v := by
  rw [mem_iff_cov] at hv ⊢
  obtain ⟨y, hy, h1, h2⟩ := hv
  have fin : (∃ x ∈ a.extract, x.lo ≤ y.lo ∧ y.hi ≤ x.hi) → Cov a.extract (cut v) := by
    rintro ⟨x, hx, h3, h4⟩
    exact ⟨x, hx, by order, by order⟩
  cases a with
  | empty => cases b with
    | empty => cases hy
    | item j =>
      rw [VSet.includes, VSet.isEmpty, isEmpty_false (show j.Normal from hb)] at h; cases h
    | union items => simp [VSet.includes, VSet.isEmpty] at h
  | union items => exact fin (includesLoop_loose _ _ _ le_rfl ha hb.items h y hy)
  | item i =>
    refine fin ⟨i, by simp [VSet.extract], ?_⟩
    have hyn := hb.items y hy
    cases b with
    | empty => cases hy
    | item j =>
      obtain rfl : y = j := by simpa [VSet.extract] using hy
      refine (includesItem_iff ha hyn).1 ?_
      cases i <;> simpa [VSet.includes] using h
    | union items => cases i with
      | range r =>
        simp only [VSet.includes, List.all_eq_true] at h
        exact (includesItem_iff (show (Item.range r).Normal from ha) hyn).1 (h y hy)
      | point p => simp [VSet.includes] at h

example : (VSet.union [exRange (some [5]) (some [7]), exPoint [1], exRange (some [2]) (some [6])]).includes
    (.union [exPoint [1], exRange (some [3]) (some [4])]) = true := by decide +kernel

/-- C113. If `a.intersects(b)` then some version is in both. -/
theorem C113_intersects (a b : VSet) (ha : a.Loose) (hb : b.Loose) (wa : a.Wf) (wb : b.Wf) (h : a.intersects b = true) :
    ∃ v : Version, v.Wf ∧ a.Mem v ∧ b.Mem v := by
  refine (overlap_versions wa wb).1 ?_
  have fin : (∃ x ∈ a.extract, ∃ y ∈ b.extract, x.lo < y.hi ∧ y.lo < x.hi) → ∃ c, a.Cov c ∧ b.Cov c := by
    rintro ⟨x, hx, y, hy, h1, h2⟩
    have lx := (ha.items x hx).lo_lt_hi
    have ly := (hb.items y hy).lo_lt_hi
    rcases le_total x.lo y.lo with h3 | h3
    · exact ⟨y.lo, ⟨x, hx, h3, h2⟩, ⟨y, hy, le_rfl, ly⟩⟩
    · exact ⟨x.lo, ⟨x, hx, le_rfl, lx⟩, ⟨y, hy, h3, h1⟩⟩
  cases a with
  | empty => cases h
  | union items => exact fin (intersectsLoop_loose _ _ _ le_rfl ha hb.items h)
  | item i => cases i with
    | point p =>
      rw [VSet.intersects, contains_cov] at h
      exact ⟨cut p, ⟨.point p, by simp [VSet.extract], (contains_iff p).1 (by simp [Item.contains, veq_iff])⟩, h⟩
    | range r => cases b with
      | empty => cases h
      | item j => exact fin ⟨_, by simp [VSet.extract], j, by simp [VSet.extract], (intersectsItem_iff (show (Item.range r).Normal from ha) hb).1 h⟩
      | union items =>
        simp only [VSet.intersects, List.any_eq_true] at h
        obtain ⟨j, hj, h⟩ := h
        exact fin ⟨_, by simp [VSet.extract], j, hj, (intersectsItem_iff (show (Item.range r).Normal from ha) (hb j hj)).1 h⟩

example : (VSet.union [exRange (some [2]) (some [4]), exPoint [1]]).intersects (.union [exPoint [1], exPoint [3], exPoint [0]]) = true := by decide +kernel

/-- C113. Asked of a single range or version, `intersects` is exact, and so is `includes` of a range; the items of the other
side are gone through one by one. -/
theorem C113_item (i : Item) (b : VSet) (hi : i.Normal) (hb : b.Loose) (wi : i.Wf) (wb : b.Wf) :
    ((VSet.item i).intersects b = true ↔ ∃ v : Version, v.Wf ∧ i.Mem v ∧ b.Mem v) ∧
    ((∃ r, i = .range r) → ((VSet.item i).includes b = true ↔ ∀ v : Version, v.Wf → b.Mem v → i.Mem v)) := by
  constructor
  · refine ⟨fun h => C113_intersects (.item i) b hi hb wi wb h, fun h => ?_⟩
    obtain ⟨c, ⟨x, hx, h1, h2⟩, y, hy, h3, h4⟩ := (overlap_versions (a := .item i) wi wb).2 h
    obtain rfl : x = i := by simpa [VSet.extract] using hx
    have key : x.intersectsItem y = true := (intersectsItem_iff hi (hb.items y hy)).2 ⟨by order, by order⟩
    cases b with
    | empty => cases hy
    | item j =>
      obtain rfl : y = j := by simpa [VSet.extract] using hy
      cases x with
      | range r => exact key
      | point p => simpa [VSet.intersects, VSet.contains, Item.intersectsItem] using key
    | union items => cases x with
      | range r =>
        simp only [VSet.intersects, List.any_eq_true]
        exact ⟨y, hy, key⟩
      | point p =>
        simp only [VSet.intersects, VSet.contains, List.any_eq_true]
        exact ⟨y, hy, by simpa [Item.intersectsItem] using key⟩
  · rintro ⟨r, rfl⟩
    refine ⟨fun h v _ hv => C113_includes (.item (.range r)) b hi hb h v hv, fun h => ?_⟩
    have hc := (subset_versions (a := .item (.range r)) wi wb).2 h
    have key : ∀ y ∈ b.extract, (Item.range r).includesItem y = true := by
      intro y hy
      have ly := (hb.items y hy).lo_lt_hi
      rw [includesItem_iff hi (hb.items y hy)]
      refine (cov_subset_iff (xs := [.range r]) (ys := [y]) (allNormal_single hi) (gaps_single _) (allNormal_single (hb.items y hy))).2
        (fun c h => ?_) y (by simp) |>.elim fun x hx => ?_
      · have := hc c ⟨y, hy, by simpa using h⟩
        exact this
      · obtain rfl : x = .range r := by simpa using hx.1
        exact hx.2
    cases b with
    | empty => rfl
    | item j => exact key j (by simp [VSet.extract])
    | union items =>
      simp only [VSet.includes, List.all_eq_true]
      exact key

example : (VSet.item (exRange (some [1]) none)).includes (.union [exPoint [3], exPoint [1]]) = true ∧
    (VSet.item (exRange (some [1]) (some [2]))).intersects (.union [exPoint [3], exPoint [1]]) = true := by decide +kernel

/-! ## Operations err on one side -/

/-- C113. Whatever `a.intersection(b)` returns is in normal form, and its versions are in `a` and in `b`; some that are in both may
be missing. -/
theorem C113_intersection (lim : Nat) (a b s : VSet) (ha : a.Loose) (hb : b.Loose) (h : a.intersection lim b = .ok s) :
    s.Normal ∧ ∀ v, s.Mem v → a.Mem v ∧ b.Mem v := by
  have loop : ∀ {xs ys : List Item}, AllNormal xs → AllNormal ys →
      (do VSet.unionOf lim ((← VSet.intersectionLoop xs ys).map .item)) = .ok s →
      s.Normal ∧ ∀ c, Cov s.extract c → Cov xs c ∧ Cov ys c := by
    intro xs ys hx hy h
    obtain ⟨out, o1, o2, o3⟩ := intersectionLoop_loose _ xs ys le_rfl hx hy
    rw [o1] at h
    obtain ⟨h1, h2⟩ := unionOf_items o2 h
    exact ⟨h1, fun c hc => o3 c ((h2 c).1 hc)⟩
  have fin : (s.Normal ∧ ∀ c, Cov s.extract c → Cov a.extract c ∧ Cov b.extract c) →
      s.Normal ∧ ∀ v, s.Mem v → a.Mem v ∧ b.Mem v :=
    fun h => ⟨h.1, fun v hv => by rw [mem_iff_cov] at hv ⊢; rw [mem_iff_cov]; exact h.2 _ hv⟩
  cases a with
  | empty => cases h; exact ⟨trivial, fun v hv => hv.elim⟩
  | union items => exact fin (loop ha hb.items h)
  | item i => cases i with
    | point p =>
      simp only [VSet.intersection, Except.ok.injEq] at h
      split at h <;> subst h
      · next hc =>
        refine fin ⟨trivial, fun c hc' => ⟨hc', ?_⟩⟩
        rw [contains_cov] at hc
        obtain ⟨y, hy, h1, h2⟩ := hc
        simp only [VSet.extract, cov_cons, cov_nil, or_false, point_lo, point_hi] at hc'
        have h3 : cut p ≤ c := hc'.1
        have h4 := (before_lt_iff _ _).1 h2
        exact ⟨y, hy, by order, by order⟩
      · exact ⟨trivial, fun v hv => hv.elim⟩
    | range r => cases b with
      | empty => cases h; exact ⟨trivial, fun v hv => hv.elim⟩
      | item j =>
        obtain ⟨t, t1, t2, t3⟩ := intersection_spec (a := .item (.range r)) (b := .item j) ha hb
        rw [t1] at h
        cases h
        exact fin ⟨t2, fun c hc => (t3 c).1 hc⟩
      | union items =>
        obtain ⟨h1, h2⟩ := loop hb (allNormal_single (show (Item.range r).Normal from ha)) h
        exact fin ⟨h1, fun c hc => (h2 c hc).symm⟩

example : (VSet.union [exPoint [3], exPoint [1], exPoint [4]]).intersection 5 (.item (exRange (some [2]) none)) =
    .ok (.union [exPoint [3], exPoint [4]]) := by decide +kernel

/-- C113. Whatever `a.difference(b)` returns, `b` having some version, is in normal form, and it has versions of `a` only, all those
that are not in `b` among them; some that are in `b` may be left. -/
theorem C113_difference (lim : Nat) (a b s : VSet) (ha : a.Loose) (hb : b.Loose) (hb' : ∃ i, b.Has i)
    (h : a.difference lim b = .ok s) : s.Normal ∧ ∀ v, (s.Mem v → a.Mem v) ∧ (a.Mem v → ¬ b.Mem v → s.Mem v) := by
  have hne : b.extract ≠ [] := by
    obtain ⟨i, hi⟩ := hb'
    have := (has_iff b i).1 hi
    rintro h; rw [h] at this; cases this
  have fin : s.Normal ∧ DiffBetween s.extract a.extract b.extract →
      s.Normal ∧ ∀ v, (s.Mem v → a.Mem v) ∧ (a.Mem v → ¬ b.Mem v → s.Mem v) := by
    refine fun h => ⟨h.1, fun v => ?_⟩
    rw [mem_iff_cov, mem_iff_cov, mem_iff_cov]
    exact ⟨h.2.1 _, h.2.2 _⟩
  have fin' : ∀ {out : List Item}, AllNormal out → DiffBetween out a.extract b.extract → VSet.unionOf lim (out.map .item) = .ok s →
      s.Normal ∧ DiffBetween s.extract a.extract b.extract := by
    intro out hn ho h
    obtain ⟨h1, h2⟩ := unionOf_items hn h
    exact ⟨h1, fun c hc => ho.1 c ((h2 c).1 hc), fun c hc hc' => (h2 c).2 (ho.2 c hc hc')⟩
  cases a with
  | empty => cases h; exact ⟨trivial, fun v => ⟨fun hv => hv.elim, fun hv => hv.elim⟩⟩
  | union items =>
    obtain ⟨out, o1, o2, o3⟩ := diffCompute_loose ha hb.items hne
    rw [VSet.difference, o1] at h
    exact fin (fin' o2 o3 h)
  | item i => cases i with
    | point p =>
      simp only [VSet.difference, Except.ok.injEq] at h
      split at h <;> subst h
      · next hc =>
        refine ⟨trivial, fun v => ⟨fun hv => hv.elim, fun hv hv' => absurd ?_ hv'⟩⟩
        rw [vset_contains_iff_mem, mem_iff_cov] at hc
        rw [mem_iff_cov]
        have e : cut v = cut p := by
          unfold cut cutAt
          rw [← (show p.key = v.key from (veq_iff _ _).1 hv)]
        rwa [e]
      · exact ⟨trivial, fun v => ⟨id, fun hv _ => hv⟩⟩
    | range r => cases b with
      | empty => exact absurd rfl hne
      | item j =>
        obtain ⟨t, t1, t2, t3⟩ := difference_spec (a := .item (.range r)) (b := .item j) ha hb (by simp [DiffBad])
        rw [t1] at h
        cases h
        exact fin ⟨t2, fun c hc => ((t3 c).1 hc).1, fun c hc hc' => (t3 c).2 ⟨hc, hc'⟩⟩
      | union items =>
        obtain ⟨out, o1, o2, o3⟩ := differenceIterator_loose items (.range r) ha hb
        rw [VSet.difference, o1] at h
        exact fin (fin' o2 o3 h)

example : (VSet.union [exRange (some [1]) (some [4]), exPoint [3]]).difference 5 (.item (exPoint [2])) =
    .ok (.union [exRange (some [1]) (some [2]), exRange (some [2]) (some [4]) false]) := by decide +kernel

/-- C113. Whatever `complement` returns has all the versions that are not in the set, and maybe some that are. -/
theorem C113_complement (lim : Nat) (a s : VSet) (ha : a.Loose) (hne : a ≠ .union []) (h : a.complement lim = .ok s) (v : Version)
    (hv : ¬ a.Mem v) : s.Mem v := by
  have hu : VSet.universal.Mem v := (mem_iff_cov _ _).2 ((universal_cov _).2 (cutAt_lt_top v false).ne)
  cases a with
  | empty =>
    have h : Except.ok VSet.universal = Except.ok s := h
    cases h
    exact hu
  | item i => exact ((C113_difference lim _ _ s (show (VSet.universal).Loose from universal_normal) ha ⟨i, rfl⟩ h).2 v).2 hu hv
  | union items =>
    cases items with
    | nil => exact absurd rfl hne
    | cons i l => exact ((C113_difference lim _ _ s (show (VSet.universal).Loose from universal_normal) ha ⟨i, by simp [VSet.Has]⟩ h).2 v).2 hu hv

example : (VSet.union [exPoint [1], exPoint [1, 0]]).complement 5 =
    .ok (.union [exRange none (some [1]) false, exRange (some [1]) none false]) := by decide +kernel

/-! ## How they go wrong -/

/-- C113, violated without order. The union of two versions with the greater one first contains both, and yet does not include
the union of the two, does not intersect the lesser one, has no intersection with it, does not lose it by `difference`, has it
in its complement, and is not equal to the union that `VersionUnion.of` makes of it. -/
theorem C113_violation (x y : Version) (h : x <ₚ y) (lim : Nat) :
    let u := VSet.union [.point y, .point x]
    let n := VSet.union [.point x, .point y]
    (u.contains x = true ∧ u.contains y = true) ∧ VSet.unionOf (lim + 1) [u] = .ok n ∧ u.eq n = false ∧
      u.includes n = false ∧ u.intersects (.item (.point x)) = false ∧ u.intersection lim (.item (.point x)) = .ok .empty ∧
      u.difference (lim + 1) (.item (.point x)) = .ok n ∧ ∃ s, u.complement lim = .ok s ∧ s.Mem x := by
  intro u n
  have hk : x.key < y.key := by simpa [vlt_iff] using h
  have nx : ∀ v : Version, (Item.point v).Normal := fun v => trivial
  have ex : ∀ v : Version, (Item.point v).EndsOk := point_ends
  have c1 : cutAt x true < cutAt y false := (cutAt_lt _ _ _ _).2 (.inl hk)
  have c2 : cutAt x false < cutAt x true := (cutAt_lt _ _ _ _).2 (.inr ⟨rfl, rfl, rfl⟩)
  have c3 : cutAt y false < cutAt y true := (cutAt_lt _ _ _ _).2 (.inr ⟨rfl, rfl, rfl⟩)
  have e1 : (Item.point y).includesItem (.point x) = false := by
    rw [Bool.eq_false_iff, ne_eq, includesItem_iff (nx y) (nx x), point_lo, point_hi, point_lo, point_hi]
    rintro ⟨h1, -⟩; order
  have e2 : (Item.point x).includesItem (.point y) = false := by
    rw [Bool.eq_false_iff, ne_eq, includesItem_iff (nx x) (nx y), point_lo, point_hi, point_lo, point_hi]
    rintro ⟨-, h1⟩; order
  have e3 : (Item.point x).includesItem (.point x) = true := (includesItem_iff (nx x) (nx x)).2 ⟨le_rfl, le_rfl⟩
  have e4 : (Item.point y).intersectsItem (.point x) = false := by
    rw [Bool.eq_false_iff, ne_eq, intersectsItem_iff (nx y) (nx x), point_lo, point_hi, point_lo, point_hi]
    rintro ⟨h1, -⟩; order
  have e5 : (Item.point x).isHigher (.point y) = false := by
    rw [Bool.eq_false_iff, ne_eq, isHigher_iff (ex x) (ex y), point_hi, point_hi]; order
  have e6 : (Item.point x).isStrictlyLower (.point y) = true := by
    rw [isStrictlyLower_iff (ex x) (ex y), point_lo, point_hi]; order
  have e7 : (Item.point y).intersectionItem (.point x) = .ok .empty := by
    rcases intersectionItem_spec (nx y) (nx x) with ⟨h1, -⟩ | ⟨-, h1⟩
    · rw [point_lo, point_hi] at h1; order
    · exact h1
  have e8 : (Item.point y).eq (.point x) = false := by
    rw [Bool.eq_false_iff, ne_eq, item_eq_iff (ex y) (ex x), point_lo, point_hi, point_lo, point_hi]
    rintro ⟨h1, -⟩; order
  have l1 : (Item.point x).lt (.point y) = true := (item_lt_iff (ex x) (ex y)).2 (.inl (by rw [point_lo, point_lo]; order))
  have l2 : (Item.point y).lt (.point x) = false := by
    rw [Bool.eq_false_iff, ne_eq, item_lt_iff (ex y) (ex x), point_lo, point_hi, point_lo, point_hi]
    rintro (h1 | ⟨h1, -⟩) <;> order
  have hmerge : ∀ f, VSet.mergeItems f [.point y, .point x] = .ok n := by
    intro f
    have h1 := mergeItems_gaps (l := [.point x, .point y]) (by intro i hi; simp at hi; rcases hi with rfl | rfl <;> trivial)
      (by unfold Gaps; rw [List.pairwise_pair, point_hi, point_lo]; exact c1) f
    have h2 : VSet.sortItems [.point y, .point x] = VSet.sortItems [.point x, .point y] := by
      simp [VSet.sortItems, List.insertionSort, List.orderedInsert, l1, l2]
    have h3 : VSet.mergeItems f [.point y, .point x] = VSet.mergeItems f [.point x, .point y] := by
      simp only [VSet.mergeItems, h2, List.isEmpty_cons, List.any_cons, List.any_nil, Bool.or_false,
        Bool.or_comm (Item.point y).isUniversal, Bool.false_or]
    rw [h3, h1]; rfl
  refine ⟨⟨?_, ?_⟩, hmerge _, ?_, ?_, ?_, ?_, ?_, ?_⟩
  · rw [vset_contains_iff_mem]
    exact ⟨.point x, by simp, (veq_iff _ _).2 rfl⟩
  · rw [vset_contains_iff_mem]
    exact ⟨.point y, by simp, (veq_iff _ _).2 rfl⟩
  · simp [u, n, VSet.eq, e8]
  · simp [u, n, VSet.includes, VSet.extract, VSet.includesLoop, e1, e2, e3]
  · simp [u, VSet.intersects, VSet.extract, VSet.intersectsLoop, e4, e5]
  · simp [u, VSet.intersection, VSet.extract, VSet.intersectionLoop, e7, e5, bind, Except.bind, VSet.unionOf, VSet.mergeItems]
  · have h1 : VSet.Diff.compute (lim + 1) [.point y, .point x] [.point x] = .ok [.point y, .point x] := by
      simp [VSet.Diff.compute, VSet.Diff.loop, VSet.Diff.step, VSet.Diff.nextOtherCurrent, e6, bind, Except.bind]
    simp only [u, VSet.difference, VSet.extract, h1, bind, Except.bind]
    exact hmerge _
  · obtain ⟨l, r, hp, hd⟩ := differenceItem_overlap universal_normal (nx y)
      (by rw [universal_lo, point_hi]; exact bot_lt_cutAt _ _) (by rw [universal_hi, point_lo]; exact cutAt_lt_top _ _)
    cases l with
    | none =>
      have := hp.left_iff.1 rfl
      rw [universal_lo, point_lo] at this
      exact absurd this (not_le.2 (bot_lt_cutAt _ _))
    | some l => cases r with
      | none =>
        have := hp.right_iff.1 rfl
        rw [universal_hi, point_hi] at this
        exact absurd this (not_le.2 (cutAt_lt_top _ _))
      | some r =>
        obtain ⟨a1, a2, a3⟩ := hp.left l rfl
        obtain ⟨b1, b2, b3⟩ := hp.right r rfl
        rw [universal_lo] at a2
        rw [point_lo] at a3
        rw [point_hi] at b2
        have lr := b1.lo_lt_hi
        have s1 : (Item.point y).isStrictlyLower universalItem = false := by
          rw [Bool.eq_false_iff, ne_eq, isStrictlyLower_iff (ex y) universal_normal.endsOk, universal_lo, point_hi, not_le]
          exact bot_lt_cutAt _ _
        have s2 : (Item.point y).isStrictlyHigher universalItem = false := by
          rw [Bool.eq_false_iff, ne_eq, isStrictlyHigher_iff (ex y) universal_normal.endsOk, universal_hi, point_lo, not_le]
          exact cutAt_lt_top _ _
        have s3 : (Item.point x).isStrictlyLower r = true := by
          rw [isStrictlyLower_iff (ex x) b1.endsOk, b2, point_hi]; order
        have hit : universalItem.differenceIterator lim [.point y, .point x] = .ok [l, r] := by
          simp [Item.differenceIterator, s1, s2, s3, hd lim, ofItems, bind, Except.bind]
        have hg := mergeItems_gaps (l := [l, r]) ((allNormal_single b1).cons a1)
          (by unfold Gaps; rw [List.pairwise_pair, a3, b2]; exact c3) (Item.unionItem lim)
        refine ⟨.union [l, r], ?_, l, by simp, ?_⟩
        · have : universalItem.differenceIterator lim [.point y, .point x] = .ok [l, r] := hit
          unfold universalItem at this
          simp only [u, VSet.complement, VSet.universal, universalItem, VSet.difference, this, bind, Except.bind]
          exact hg
        · rw [mem_iff_cut, a2, a3]
          exact ⟨bot_le, show cutAt x false < _ by order⟩

example : (VSet.union [exPoint [3], exPoint [1]]).complement 5 =
    .ok (.union [exRange none (some [3]) false, exRange (some [3]) none false]) ∧
    (VSet.union [exPoint [3], exPoint [1]]).intersects (.item (exRange none (some [2]) false)) = false ∧
    (VSet.item (exRange none (some [2]) false)).intersects (.union [exPoint [3], exPoint [1]]) = true := by decide +kernel

end Verif
