import Verif.Proofs.Made
import Verif.Props.Sets
/-!
# What the predicates of sets say (C55), and ranges as the constructor accepts them (C56)

The constructor of `VersionRange` accepts ranges without versions, like `(1, 1)`, and ranges with a single one, like
`[1, 1]`, which are not in normal form. `Item.Made` are all ranges and points the constructors accept.
-/

namespace Verif
open scoped Verif

/-! ## C55 -/

/-- C55. `i.is_empty()` iff no version is in the range. -/
theorem C55_empty_range (i : Item) (hm : i.Made) (hw : i.Wf) : i.isEmpty = true ↔ ∀ v : Version, v.Wf → ¬ i.Mem v := by
  rw [made_isEmpty hm]
  constructor
  · intro h v _ hv
    rw [mem_iff_cut] at hv
    exact absurd (lt_of_le_of_lt hv.1 hv.2) (not_lt_of_ge h)
  · intro h
    by_contra hc
    obtain ⟨v, v1, v2, v3⟩ := exists_between hw.lo hw.hi (not_le.1 hc)
    exact h v v1 ((mem_iff_cut i v).2 ⟨v2, v3⟩)

example : (exRange (some [1]) (some [1, 0]) false true).Wf ∧ (exRange (some [1]) (some [1, 0]) false true).isEmpty = true ∧
    (exRange (some [1]) (some [1, 0, 1]) false).isEmpty = false := by decide +kernel

/-- C55. `i.is_point()` iff the range has exactly one version, up to `==`; and then `i.version` is that version, otherwise
it is a ValueError. -/
theorem C55_point (i : Item) (hm : i.Made) (hw : i.Wf) :
    (i.isPoint = true ↔ ∃ v : Version, v.Wf ∧ i.Mem v ∧ ∀ w : Version, w.Wf → i.Mem w → w ==ₚ v) ∧
    (i.isPoint = true → ∃ v, i.version = .ok v ∧ i.Mem v) ∧ (i.isPoint = false → i.version = .error .valueError) := by
  have hver : i.isPoint = true → ∃ v, i.version = .ok v ∧ i.Mem v ∧ ∀ w : Version, i.Mem w → w ==ₚ v := by
    intro h
    obtain ⟨v, v1, v2⟩ := (made_isPoint hm).1 h
    obtain ⟨w, w1, w2⟩ := made_version v1 v2 hm
    refine ⟨w, w1, ?_, fun u hu => ?_⟩
    · rw [mem_iff_cut, v1, v2, cut, cutAt_le, cutAt_lt]
      exact ⟨.inr ⟨w2.symm, by simp⟩, .inr ⟨w2, rfl, rfl⟩⟩
    · rw [mem_iff_cut, v1, v2, cut, cutAt_le, cutAt_lt] at hu
      rw [veq_iff, w2]
      obtain ⟨h1 | h1, h2 | h2⟩ := hu
      · exact absurd h1 (not_lt_of_gt h2)
      · exact h2.1
      · exact h1.1.symm
      · exact h2.1
  refine ⟨⟨?_, ?_⟩, ?_, ?_⟩
  · intro h
    obtain ⟨v, v1, v2, v3⟩ := hver h
    refine ⟨v, ?_, v2, fun w _ => v3 w⟩
    cases i with
    | point x => cases v1; exact hw.1 _ rfl
    | range r =>
      simp only [Item.version, h, if_true, Item.versionUnchecked] at v1
      cases hx : (Item.range r).min with
      | some x => rw [hx] at v1; cases v1; exact hw.1 _ hx
      | none =>
        rw [hx] at v1
        cases hy : (Item.range r).max with
        | some y => rw [hy] at v1; cases v1; exact hw.2 _ hy
        | none => rw [hy] at v1; cases v1
  · rintro ⟨v, v1, v2, v3⟩
    by_contra hc
    rw [made_isPoint hm] at hc
    rw [mem_iff_cut] at v2
    obtain ⟨x, y, hx, hy, x1, y1, hlt⟩ := two_versions hw.lo hw.hi (lt_of_le_of_lt v2.1 v2.2) (fun u hu => hc ⟨u, hu⟩)
    have e1 := (veq_iff _ _).1 (v3 x hx ((mem_iff_cut i x).2 x1))
    have e2 := (veq_iff _ _).1 (v3 y hy ((mem_iff_cut i y).2 y1))
    rw [e1, e2] at hlt
    exact lt_irrefl _ hlt
  · intro h
    obtain ⟨v, v1, v2, -⟩ := hver h
    exact ⟨v, v1, v2⟩
  · intro h
    cases i with
    | point x => cases h
    | range r => simp [Item.version, h]

example : (exRange (some [1]) (some [1, 0]) true true).isPoint = true ∧ (exRange (some [1]) (some [1, 0]) true true).Mem (exVersion [1]) ∧
    (exRange (some [1]) (some [2]) true true).version = .error .valueError := by decide +kernel

/-- C55. `i.is_universal()` iff all versions are in the range. -/
theorem C55_universal_range (i : Item) (hm : i.Made) (hw : i.Wf) : i.isUniversal = true ↔ ∀ v : Version, v.Wf → i.Mem v := by
  constructor
  · intro h v _
    cases i with
    | point x => cases h
    | range r =>
      simp only [Item.isUniversal, Item.isUnbounded, Bool.and_eq_true, Option.isNone_iff_eq_none, Item.min, Item.max, Item.fields] at h
      constructor
      · intro m hmm; rw [h.1] at hmm; cases hmm
      · intro m hmm; rw [h.2] at hmm; cases hmm
  · intro h
    have hmin : i.min = none := by
      cases hx : i.min with
      | none => rfl
      | some x =>
        obtain ⟨v, -, hv, -, hlt, -⟩ := exists_version_beyond (hw.1 x hx)
        have := ((mem_iff_cut i v).1 (h v hv)).1
        simp only [Item.lo, loOf, hx, cut, cutAt_le] at this
        rcases this with h | h
        · exact absurd h (not_lt_of_gt hlt)
        · exact absurd h.1 hlt.ne'
    have hmax : i.max = none := by
      cases hx : i.max with
      | none => rfl
      | some x =>
        obtain ⟨-, v, -, hv, -, hlt⟩ := exists_version_beyond (hw.2 x hx)
        have := ((mem_iff_cut i v).1 (h v hv)).2
        simp only [Item.hi, hiOf, hx, cut, cutAt_lt] at this
        rcases this with h | h
        · exact absurd h (not_lt_of_gt hlt)
        · exact absurd h.1 hlt.ne'
    cases i with
    | point x => cases hmin
    | range r => simp [Item.isUniversal, Item.isUnbounded, hmin, hmax]

example : (exRange none none false).isUniversal = true ∧ (exRange none (some [9]) false).isUniversal = false ∧
    ¬ (exRange none (some [9]) false).Mem (exVersion [9]) := by decide +kernel

/-- C55. The same for sets in normal form. -/
theorem C55_sets (s : VSet) (hn : s.Normal) (hw : s.Wf) :
    (s.isEmpty = true ↔ ∀ v : Version, v.Wf → ¬ s.Mem v) ∧ (s.isUniversal = true ↔ ∀ v : Version, v.Wf → s.Mem v) := by
  cases s with
  | empty =>
    refine ⟨⟨fun _ _ _ h => h, fun _ => rfl⟩, ⟨fun h => ?_, fun h => ?_⟩⟩
    · cases h
    · obtain ⟨v, hv⟩ := exists_wf
      exact (h v hv).elim
  | item i => exact ⟨C55_empty_range i (Item.Normal.made hn) hw, C55_universal_range i (Item.Normal.made hn) hw⟩
  | union items =>
    constructor
    · simp only [VSet.isEmpty, Bool.false_eq_true, false_iff, not_forall, not_not]
      have hl : 2 ≤ items.length := hn.1
      obtain ⟨i, hi⟩ : ∃ i, i ∈ items := by
        cases items with
        | nil => simp at hl
        | cons x l => exact ⟨x, by simp⟩
      obtain ⟨v, v1, v2⟩ := (C19_normal_meaning items hn hw i hi).2.2
      exact ⟨v, v1, i, hi, v2⟩
    · simp only [VSet.isUniversal, Bool.false_eq_true, false_iff]
      intro h
      have h1 := (subset_versions (a := .union items) (b := .universal) hw ⟨by rintro _ ⟨⟩, by rintro _ ⟨⟩⟩).2 (fun v hv _ => h v hv)
      have h2 : (VSet.union items).eq .universal = true := by
        rw [eq_iff_cov (b := .universal) hn universal_normal]
        exact fun c => ⟨fun h => (universal_cov c).2 (cov_lt_top h), h1 c⟩
      simp [VSet.eq, VSet.universal] at h2

example : VSet.universal.isUniversal = true ∧ (VSet.union [exRange none (some [1]) false, exRange (some [1]) none false]).Normal ∧
    (VSet.union [exRange none (some [1]) false, exRange (some [1]) none false]).isUniversal = false := by decide +kernel

/-- C55. A union excludes exactly one version, up to `==`, iff `exclude_version` returns it. -/
theorem C55_exclude_version (items : List Item) (hn : (VSet.union items).Normal) (hw : (VSet.union items).Wf) :
    ∃ o, (∀ lim, VSet.excludeVersion lim items = .ok o) ∧ (∀ v, o = some v → ∀ w, (VSet.union items).Mem w ↔ ¬ w ==ₚ v) ∧
      (o = none → ¬ ∃ v : Version, v.Wf ∧ ∀ w : Version, w.Wf → ((VSet.union items).Mem w ↔ ¬ w ==ₚ v)) := by
  obtain ⟨s, s1, s2, s3⟩ := complement_spec (a := .union items) hn
  have hmem : ∀ w, s.Mem w ↔ ¬ (VSet.union items).Mem w := by
    intro w
    rw [mem_iff_cov, mem_iff_cov, ← VSet.Cov, s3]
    exact ⟨fun h => h.2, fun h => ⟨(cutAt_lt_top _ _).ne, h⟩⟩
  by_cases hp : ∃ v, s = .item (.point v)
  · obtain ⟨v, rfl⟩ := hp
    refine ⟨some v, fun lim => ?_, ?_, by simp⟩
    · rw [VSet.excludeVersion, s1]; rfl
    · rintro _ ⟨⟩ w
      have := hmem w
      rw [← not_iff_not, not_not, ← this]
      simp only [VSet.Mem, Item.Mem, veq_iff]
      exact eq_comm
  · refine ⟨none, fun lim => ?_, by simp, ?_⟩
    · rw [VSet.excludeVersion, s1]
      cases s with
      | empty => rfl
      | union l => rfl
      | item i => cases i with
        | range r => rfl
        | point v => exact absurd ⟨v, rfl⟩ hp
    · rintro - ⟨v, hv, h⟩
      have wfs : s.Wf := (wf_iff s).2 (complement_ends ((wf_iff (.union items)).1 hw) (s1 0))
      have heq : s.eq (.item (.point v)) = true := by
        rw [C28_eq_iff_same_versions s (.item (.point v)) s2 trivial wfs ⟨by rintro _ ⟨⟩; exact hv, by rintro _ ⟨⟩; exact hv⟩]
        intro w hw'
        rw [hmem, h w hw', not_not]
        simp only [VSet.Mem, Item.Mem, veq_iff]
        exact eq_comm
      cases s with
      | empty => simp [VSet.eq] at heq
      | union l => simp [VSet.eq] at heq
      | item i => cases i with
        | point w => exact hp ⟨w, rfl⟩
        | range r =>
          have hn : (Item.range r).Normal := s2
          simp only [VSet.eq, Item.eq, Bool.and_eq_true, Item.min, Item.max, Item.fields] at heq
          obtain ⟨⟨⟨e1, e2⟩, -⟩, -⟩ := heq
          obtain ⟨mn, mx, a, b⟩ := r
          cases mn with
          | none => simp [optEq] at e1
          | some x => cases mx with
            | none => simp [optEq] at e2
            | some y =>
              simp only [optEq_some] at e1 e2
              have := (vlt_iff _ _).1 (hn.2.2 x y rfl rfl)
              rw [e1, e2] at this
              exact lt_irrefl _ this

example : (exRange (some [1]) (some [1, 0]) true false).isEmpty = true ∧ (exRange (some [1]) (some [1, 0]) true true).isPoint = true ∧
    (exRange (some [1]) (some [1, 0]) true true).version = .ok (exVersion [1]) ∧
    VSet.excludeVersion 5 [exRange none (some [1]) false, exRange (some [1, 0]) none false] = .ok (some (exVersion [1])) := by decide +kernel

/-! ## C56 -/

/-- C56. `contains` is exact for everything the constructors accept, and so is the intersection, which never fails. -/
theorem C56_intersection (a b : Item) (ha : a.Made) (hb : b.Made) :
    ∃ s, (∀ lim, (VSet.item a).intersection lim (.item b) = .ok s) ∧ (∀ i, s.Has i → i.Made) ∧
      ∀ v, s.contains v = true ↔ a.contains v = true ∧ b.contains v = true := by
  obtain ⟨s, h1, h2, h3⟩ := intersectionItem_made ha hb
  refine ⟨s, fun lim => ?_, h2, fun v => by rw [vset_contains_iff_mem, h3, contains_iff_mem, contains_iff_mem]⟩
  cases a with
  | range r => cases b <;> exact h1
  | point v => cases b <;> exact h1

example : (VSet.item (exRange (some [1]) (some [1]) false false)).intersection 5 (.item (exRange (some [0]) none)) =
    .ok (.item (exRange (some [1]) (some [1]) false false)) := by decide +kernel

/-- C56. `includes` is never wrongly true. -/
theorem C56_includes (a b : Item) (ha : a.Made) (hb : b.Made) (h : (VSet.item a).includes (.item b) = true) (v : Version) (hv : b.Mem v) :
    a.Mem v := by
  cases a with
  | range r => cases b with
    | range s =>
      simp only [VSet.includes, Item.includesItem, Bool.and_eq_true, Bool.not_eq_true', ← Bool.not_eq_true] at h
      rw [isLower_iff hb.endsOk ha.endsOk, isHigher_iff hb.endsOk ha.endsOk, not_lt, not_lt] at h
      rw [mem_iff_cut] at hv ⊢
      exact ⟨h.1.trans hv.1, lt_of_lt_of_le hv.2 h.2⟩
    | point w =>
      simp only [VSet.includes, Item.includesItem] at h
      rw [contains_iff] at h
      have hv : w ==ₚ v := hv
      have e : cut w = cut v := (cutAt_eq _ _ _ _).2 ⟨(veq_iff _ _).1 hv, rfl⟩
      rw [mem_iff_cut, ← e]
      exact h
  | point x => cases b with
    | range s =>
      have h : (Item.range s).isEmpty = true := by simpa [VSet.includes, Item.includesItem] using h
      rw [made_isEmpty hb] at h
      rw [mem_iff_cut] at hv
      exact absurd (lt_of_le_of_lt hv.1 hv.2) (not_lt_of_ge h)
    | point w =>
      have h : x ==ₚ w := by simpa [VSet.includes, Item.includesItem, Item.isEmpty, Item.contains] using h
      have hv : w ==ₚ v := hv
      exact (veq_iff _ _).2 (((veq_iff _ _).1 h).trans ((veq_iff _ _).1 hv))

example : (VSet.item (exRange (some [1]) (some [3]))).includes (.item (exRange (some [2]) (some [2]) false false)) = true := by decide +kernel

/-- C56. `intersects` is never wrongly false. -/
theorem C56_intersects (a b : Item) (ha : a.Made) (hb : b.Made) (v : Version) (h1 : a.Mem v) (h2 : b.Mem v) :
    (VSet.item a).intersects (.item b) = true := by
  have key : ∀ (i : Item) (w : Version), i.Mem v → w ==ₚ v → i.contains w = true := by
    intro i w hi hw
    have e : cut w = cut v := (cutAt_eq _ _ _ _).2 ⟨(veq_iff _ _).1 hw, rfl⟩
    rw [contains_iff, e, ← mem_iff_cut]
    exact hi
  cases a with
  | range r => cases b with
    | range s =>
      simp only [VSet.intersects, Item.intersectsItem, Bool.and_eq_true, Bool.not_eq_true', ← Bool.not_eq_true]
      rw [isStrictlyLower_iff hb.endsOk ha.endsOk, isStrictlyHigher_iff hb.endsOk ha.endsOk, not_le, not_le]
      rw [mem_iff_cut] at h1 h2
      exact ⟨lt_of_le_of_lt h1.1 h2.2, lt_of_le_of_lt h2.1 h1.2⟩
    | point w => exact key _ w h1 h2
  | point x => cases b with
    | range s => exact key _ x h2 h1
    | point w => exact key _ x h2 h1

example : (exRange (some [1]) (some [3])).Mem (exVersion [2, 1]) ∧ (exRange (some [2]) none false).Mem (exVersion [2, 1]) ∧
    (VSet.item (exRange (some [1]) (some [3]))).intersects (.item (exRange (some [2]) none false)) = true := by decide +kernel

/-- C56, violated. `{1} ∪ (1, 1)` and `[1, 2) - (1, 1]` recurse without end. -/
theorem C56_empty_ranges_diverge (lim : Nat) :
    (VSet.item (exPoint [1])).unionWith lim (.item (exRange (some [1]) (some [1]) false false)) = .error .recursionError ∧
    (VSet.item (exRange (some [1]) (some [2]))).difference lim (.item (exRange (some [1]) (some [1]) false true)) = .error .recursionError := by
  have h1 : ∀ (i : Item) (lim : Nat), (i.contains (exVersion [1]) = false) → VSet.sortItems [exPoint [1], i] = [exPoint [1], i] →
      ((exPoint [1]).intersectsItem i || (exPoint [1]).isAdjacent i) = true → i.isUniversal = false → (∃ r, i = .range r) →
      (exPoint [1]).unionItem lim i = .error .recursionError := by
    intro i lim c1 c2 c3 c4 ⟨r, hr⟩
    subst hr
    induction lim with
    | zero => rfl
    | succ n ih =>
      simp only [exPoint] at ih c2 c3 ⊢
      simp only [Item.unionItem, c1, VSet.mergeItems, c2, VSet.mergeLoop, c3, ih, List.isEmpty_cons, List.any_cons, List.any_nil, c4, show (Item.point (exVersion [1])).isUniversal = false from rfl,
        Bool.or_false, Bool.false_eq_true, if_false, if_true]
      rfl
  constructor
  · exact h1 _ lim (by decide +kernel) (by decide +kernel) (by decide +kernel) (by decide +kernel) ⟨_, rfl⟩
  · have h2 := h1 (exRange (some [1]) (some [2]) false false) lim (by decide +kernel) (by decide +kernel) (by decide +kernel) (by decide +kernel) ⟨_, rfl⟩
    have e : (VSet.item (exRange (some [1]) (some [2]))).difference lim (.item (exRange (some [1]) (some [1]) false true)) =
        VSet.mergeItems (Item.unionItem lim) [exPoint [1], exRange (some [1]) (some [2]) false false] := rfl
    have c2 : VSet.sortItems [exPoint [1], exRange (some [1]) (some [2]) false false] = [exPoint [1], exRange (some [1]) (some [2]) false false] := by decide +kernel
    have c3 : ((exPoint [1]).intersectsItem (exRange (some [1]) (some [2]) false false) || (exPoint [1]).isAdjacent (exRange (some [1]) (some [2]) false false)) = true := by
      decide +kernel
    have c4 : (exRange (some [1]) (some [2]) false false).isUniversal = false := by decide +kernel
    rw [e, VSet.mergeItems, c2]
    simp only [VSet.mergeLoop, c3, h2, if_true]
    rfl

/-- C56, violated. With empty ranges other answers are wrong: `(1, 1) ∪ {1}` does not hold 1; `[2, 3)` does not include the empty `(1, 1)`, but intersects the empty `(2, 2)`;
and `(1, 1)`, `(2, 2)` and the empty set are all unequal. -/
theorem C56_empty_ranges (lim : Nat) :
    (VSet.item (exRange (some [1]) (some [1]) false false)).unionWith (lim + 1) (.item (exPoint [1])) =
      .ok (.item (exRange (some [1]) (some [1]) true false)) ∧
    (exRange (some [1]) (some [1]) true false).contains (exVersion [1]) = false ∧
    (VSet.item (exRange (some [2]) (some [3]))).includes (.item (exRange (some [1]) (some [1]) false false)) = false ∧
    (VSet.item (exRange (some [1]) (some [3]))).intersects (.item (exRange (some [2]) (some [2]) false false)) = true ∧
    (VSet.item (exRange (some [1]) (some [1]) false false)).eq (.item (exRange (some [2]) (some [2]) false false)) = false ∧
    (VSet.item (exRange (some [1]) (some [1]) false false)).eq .empty = false :=
  ⟨rfl, by decide +kernel, by decide +kernel, by decide +kernel, by decide +kernel, rfl⟩

/-- C56, violated. `VersionPoint(1) == VersionRange(1, 1, True, True)`, but the point does not include the range. -/
theorem C56_point_range (v : Version) :
    (VSet.item (.point v)).eq (.item (.range ⟨some v, some v, true, true⟩)) = true ∧
    (VSet.item (.point v)).includes (.item (.range ⟨some v, some v, true, true⟩)) = false ∧
    (VSet.item (.range ⟨some v, some v, true, true⟩)).includes (.item (.point v)) = true := by
  have e : optEq (some v) (some v) = true := by rw [optEq_some]
  refine ⟨?_, ?_, ?_⟩
  · simp [VSet.eq, Item.eq, Item.min, Item.max, Item.includeMin, Item.includeMax, Item.fields, e]
  · simp [VSet.includes, Item.includesItem, Item.isEmpty, Item.isClosed, Item.includeMin, Item.includeMax, Item.fields]
  · simp only [VSet.includes, Item.includesItem, contains_iff]
    constructor
    · exact (cutAt_le v v (!true) false).2 (.inr ⟨rfl, by simp⟩)
    · exact (cutAt_lt v v false true).2 (.inr ⟨rfl, rfl, rfl⟩)

example : (exRange (some [1]) (some [1, 0]) false true).Made ∧ ¬ (exRange (some [2]) (some [1]) true true).Made :=
  ⟨rfl, by unfold Item.Made exRange; decide +kernel⟩

end Verif
