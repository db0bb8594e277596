import Verif.Proofs.LooseUnions
import Verif.Proofs.Made
import Verif.Model.Specifiers
import Verif.Model.Strings
import Verif.Props.Sets
/-!
# C114: ranges with equal bounds

The constructor of `VersionRange` (/repo/versions/version_sets.py 399-407) accepts bounds that are equal, whatever is included: the
closed range `[v, v]`, which holds the version v like `VersionPoint(v)` does, and the ranges `[v, v)`, `(v, v]` and `(v, v)`, which
hold nothing. The functions of the package do not make them from ranges and versions in normal form (C19), but a caller may.
-/
set_option linter.unusedSimpArgs false

namespace Verif
open scoped Verif

/-- What the constructors of `VersionRange` and `VersionPoint` accept. -/
def Item.Accepted : Item → Prop
  | .range r => (r.min = none → r.includeMin = false) ∧ (r.max = none → r.includeMax = false) ∧
      ∀ a b, r.min = some a → r.max = some b → a ≤ₚ b
  | .point _ => True

/-- A range that holds nothing: its bounds are equal, and not both included. -/
def Item.Nothing : Item → Prop
  | .range r => ∃ a b, r.min = some a ∧ r.max = some b ∧ a ==ₚ b ∧ (r.includeMin = false ∨ r.includeMax = false)
  | .point _ => False

theorem Item.Accepted.endsOk {i : Item} (h : i.Accepted) : i.EndsOk := by
  cases i with
  | range r => exact ⟨h.1, h.2.1⟩
  | point v => exact point_ends v

theorem Item.Accepted.bounds {i : Item} (h : i.Accepted) {x y : Version} (h1 : i.min = some x) (h2 : i.max = some y) : x.key ≤ y.key := by
  cases i with
  | range r => exact (vle_iff _ _).1 (h.2.2 x y h1 h2)
  | point v =>
    simp only [Item.min, Item.max, Item.fields, Option.some.injEq] at h1 h2
    rw [← h1, ← h2]

theorem accepted_iff (i : Item) : i.Accepted ↔ i.EndsOk ∧ ∀ x y, i.min = some x → i.max = some y → x.key ≤ y.key := by
  refine ⟨fun h => ⟨h.endsOk, fun x y => h.bounds⟩, fun h => ?_⟩
  cases i with
  | range r => exact ⟨h.1.1, h.1.2, fun a b h1 h2 => (vle_iff _ _).2 (h.2 a b h1 h2)⟩
  | point v => trivial

theorem Item.Normal.accepted {i : Item} (h : i.Normal) : i.Accepted := by
  cases i with
  | range r => exact ⟨h.1, h.2.1, fun a b h1 h2 => (vle_iff _ _).2 ((vlt_iff _ _).1 (h.2.2 a b h1 h2)).le⟩
  | point v => trivial

/-- C114. The constructor returns the accepted ranges. -/
theorem C114_accepted (min max : Option Version) (includeMin includeMax : Bool) (i : Item) :
    Item.mkRange min max includeMin includeMax = .ok i ↔
      i = .range ⟨min, max, includeMin, includeMax⟩ ∧ i.Accepted := by
  rw [mkRange_iff]
  constructor
  · rintro ⟨rfl, h1, h2, h3⟩
    exact ⟨rfl, h1, h2, fun a b ha hb => (vle_iff _ _).2 (h3 a b ha hb)⟩
  · rintro ⟨rfl, h1, h2, h3⟩
    exact ⟨rfl, h1, h2, fun a b ha hb => (vle_iff _ _).1 (h3 a b ha hb)⟩

example : Item.mkRange (some (exVersion [1])) (some (exVersion [1, 0])) false true = .ok (.range ⟨some (exVersion [1]), some (exVersion [1, 0]), false, true⟩) ∧
    Item.mkRange (some (exVersion [1, 1])) (some (exVersion [1])) true true = .error .valueError := by decide +kernel

theorem lo_lt_hi_bounds {a b : Item} (h : a.lo < b.hi) {x y : Version} (h1 : a.min = some x) (h2 : b.max = some y) : x.key ≤ y.key := by
  simp only [Item.lo, Item.hi, loOf, hiOf, h1, h2, cutAt_lt] at h
  rcases h with h | h
  · exact h.le
  · exact h.1.le

theorem lo_le_bounds {a b : Item} (h : a.lo ≤ b.lo) {x y : Version} (h1 : a.min = some x) (h2 : b.min = some y) : x.key ≤ y.key := by
  simp only [Item.lo, loOf, h1, h2, cutAt_le] at h
  rcases h with h | h
  · exact h.le
  · exact h.1.le

theorem hi_le_bounds {a b : Item} (h : a.hi ≤ b.hi) {x y : Version} (h1 : a.max = some x) (h2 : b.max = some y) : x.key ≤ y.key := by
  simp only [Item.hi, hiOf, h1, h2, cutAt_le] at h
  rcases h with h | h
  · exact h.le
  · exact h.1.le

/-- A range that `is_point` is closed, with equal bounds. -/
theorem isPoint_ends {i : Item} (he : i.EndsOk) (hp : i.isPoint = true) :
    ∃ v, i.version = .ok v ∧ i.lo = cutAt v false ∧ i.hi = cutAt v true := by
  cases i with
  | point v => exact ⟨v, rfl, rfl, rfl⟩
  | range r =>
    obtain ⟨mn, mx, a, b⟩ := r
    have hp' := hp
    simp only [Item.isPoint, Item.isEmptyOrPoint, Item.isClosed, Item.comparableMin, Item.comparableMax, Item.min, Item.max, Item.fields,
      Item.includeMin, Item.includeMax, Bool.and_eq_true, eeq_iff] at hp
    obtain ⟨h1, rfl, rfl⟩ := hp
    cases mn with
    | none => exact absurd (he.1 rfl) (by simp [Item.includeMin, Item.fields])
    | some x => cases mx with
      | none => exact absurd (he.2 rfl) (by simp [Item.includeMax, Item.fields])
      | some y =>
        rw [ext_fin_eq] at h1
        refine ⟨x, ?_, rfl, ?_⟩
        · rw [Item.version, if_pos hp']; rfl
        · simp only [Item.hi, hiOf, Item.max, Item.includeMax, Item.fields, cutAt, h1]

/-- The range with the lower end of `a` and the upper end of `b`. -/
theorem mkRange_ends {a b : Item} (ha : a.EndsOk) (hb : b.EndsOk)
    (h : ∀ x y, a.min = some x → b.max = some y → x.key ≤ y.key) :
    ∃ i, Item.mkRange a.min b.max a.includeMin b.includeMax = .ok i ∧ i.Accepted ∧ i.lo = a.lo ∧ i.hi = b.hi := by
  have hacc : (Item.range ⟨a.min, b.max, a.includeMin, b.includeMax⟩).Accepted :=
    (accepted_iff _).2 ⟨⟨ha.1, hb.2⟩, h⟩
  exact ⟨.range ⟨a.min, b.max, a.includeMin, b.includeMax⟩, (C114_accepted _ _ _ _ _).2 ⟨rfl, hacc⟩, hacc, rfl, rfl⟩

/-- Between the cuts `lo` and `hi`. -/
def In (i : Item) (c : Cut) : Prop := i.lo ≤ c ∧ c < i.hi

theorem contains_in (i : Item) (v : Version) : i.contains v = true ↔ In i (cut v) := contains_iff v

theorem point_in (p : Version) {i : Item} (c : Cut) (h : In (.point p) c) : In i c ↔ In i (cut p) := by
  obtain ⟨h1, h2⟩ := h
  rw [point_lo] at h1
  rw [point_hi] at h2
  have h1 : cut p ≤ c := h1
  unfold In
  constructor
  · rintro ⟨h3, h4⟩
    exact ⟨(lt_after_iff _ _).1 (by order), by order⟩
  · rintro ⟨h3, h4⟩
    have := (before_lt_iff _ _).1 h4
    exact ⟨by order, by order⟩

/-! ## Intersection -/

theorem intersectionItem_accepted {a b : Item} (ha : a.Accepted) (hb : b.Accepted) :
    ∃ s, a.intersectionItem b = .ok s ∧ (∀ i ∈ s.extract, i.Accepted) ∧ ∀ c, Cov s.extract c ↔ In a c ∧ In b c := by
  have ea := ha.endsOk
  have eb := hb.endsOk
  have hpt : ∀ (v : Version) (o : Item), ∃ s, (Except.ok (if o.contains v then VSet.item (.point v) else VSet.empty) : Except PyErr VSet) = .ok s ∧
      (∀ i ∈ s.extract, i.Accepted) ∧ ∀ c, Cov s.extract c ↔ In (.point v) c ∧ In o c := by
    intro v o
    refine ⟨_, rfl, ?_, fun c => ?_⟩
    · split
      · rintro i hi
        obtain rfl : i = .point v := by simpa [VSet.extract] using hi
        trivial
      · rintro i hi; cases hi
    · split
      · next h =>
        rw [contains_in] at h
        simp only [VSet.extract, cov_cons, cov_nil, or_false]
        exact ⟨fun h1 => ⟨h1, (point_in v c h1).2 h⟩, fun h1 => h1.1⟩
      · next h =>
        rw [contains_in] at h
        simp only [VSet.extract, cov_nil, false_iff]
        exact fun h1 => h ((point_in v c h1.1).1 h1.2)
  cases a with
  | point v => cases b <;> exact hpt v _
  | range r => cases b with
    | point v =>
      obtain ⟨s, h1, h2, h3⟩ := hpt v (.range r)
      exact ⟨s, h1, h2, fun c => by rw [h3, and_comm]⟩
    | range t =>
      generalize hA : Item.range r = a at *
      generalize hB : Item.range t = b at *
      have none : (a.hi ≤ b.lo ∨ b.hi ≤ a.lo) → ∃ s, (Except.ok VSet.empty : Except PyErr VSet) = .ok s ∧ (∀ i ∈ s.extract, i.Accepted) ∧
          ∀ c, Cov s.extract c ↔ In a c ∧ In b c := by
        intro h
        refine ⟨.empty, rfl, (by rintro i hi; cases hi), fun c => ?_⟩
        simp only [VSet.extract, cov_nil, false_iff]
        rintro ⟨⟨h1, h2⟩, h3, h4⟩
        rcases h with h | h <;> order
      have fin : ∀ {i : Item}, i.Accepted → (∀ c, In i c ↔ In a c ∧ In b c) → ∃ s,
          (do if i.isPoint then do .ok (.item (.point (← i.version))) else .ok (.item i) : Except PyErr VSet) = .ok s ∧
          (∀ i ∈ s.extract, i.Accepted) ∧ ∀ c, Cov s.extract c ↔ In a c ∧ In b c := by
        intro i hi hc
        by_cases hp : i.isPoint = true
        · obtain ⟨v, h1, h2, h3⟩ := isPoint_ends hi.endsOk hp
          refine ⟨.item (.point v), by simp [hp, h1, bind, Except.bind], ?_, fun c => ?_⟩
          · rintro j hj
            obtain rfl : j = .point v := by simpa [VSet.extract] using hj
            trivial
          · rw [← hc]
            simp only [VSet.extract, cov_cons, cov_nil, or_false, In, h2, h3, point_lo, point_hi]
        · refine ⟨.item i, by simp [hp], ?_, fun c => ?_⟩
          · rintro j hj
            obtain rfl : j = i := by simpa [VSet.extract] using hj
            exact hi
          · rw [← hc]
            simp only [VSet.extract, cov_cons, cov_nil, or_false, In]
      have hdef : a.intersectionItem b = (if a.isLower b && a.isStrictlyLower b then .ok .empty
          else if !a.isLower b && a.isStrictlyHigher b then .ok .empty
          else do
            let i ← Item.mkRange (if a.isLower b then b else a).min (if a.isHigher b then b else a).max
              (if a.isLower b then b else a).includeMin (if a.isHigher b then b else a).includeMax
            if i.isPoint then do .ok (.item (.point (← i.version))) else .ok (.item i)) := by
        subst hA hB
        simp only [Item.intersectionItem]
        split
        · rfl
        · split
          · rfl
          · split <;> split <;> rfl
      rw [hdef]
      by_cases h1 : a.isLower b = true
      · by_cases h2 : a.isStrictlyLower b = true
        · simp only [h1, h2, Bool.and_self, if_true]
          exact none (.inl ((isStrictlyLower_iff ea eb).1 h2))
        · have h3 : b.lo < a.hi := not_le.1 fun h => h2 ((isStrictlyLower_iff ea eb).2 h)
          rw [if_neg (by simp [h2]), if_neg (by simp [h1])]
          simp only [h1, if_true]
          rw [isLower_iff ea eb] at h1
          by_cases h4 : a.isHigher b = true
          · simp only [h4, if_true]
            rw [isHigher_iff ea eb] at h4
            obtain ⟨i, i1, i2, i3, i4⟩ := mkRange_ends eb eb (fun x y => hb.bounds)
            rw [i1]
            exact fin i2 fun c => by
              simp only [In, i3, i4]
              exact ⟨fun h => ⟨⟨by order, by order⟩, h⟩, fun h => h.2⟩
          · simp only [h4, if_false, Bool.false_eq_true]
            rw [isHigher_iff ea eb, not_lt] at h4
            obtain ⟨i, i1, i2, i3, i4⟩ := mkRange_ends eb ea (fun x y => lo_lt_hi_bounds h3)
            rw [i1]
            exact fin i2 fun c => by
              simp only [In, i3, i4]
              exact ⟨fun h => ⟨⟨by order, h.2⟩, h.1, by order⟩, fun h => ⟨h.2.1, h.1.2⟩⟩
      · by_cases h2 : a.isStrictlyHigher b = true
        · simp only [h1, h2, Bool.and_self, if_true, Bool.false_and, Bool.not_false, Bool.false_eq_true, if_false]
          exact none (.inr ((isStrictlyHigher_iff ea eb).1 h2))
        · have h3 : a.lo < b.hi := not_le.1 fun h => h2 ((isStrictlyHigher_iff ea eb).2 h)
          rw [if_neg (by simp [h1]), if_neg (by simp [h2])]
          simp only [h1, if_false, Bool.false_eq_true]
          rw [isLower_iff ea eb, not_lt] at h1
          by_cases h4 : a.isHigher b = true
          · simp only [h4, if_true]
            rw [isHigher_iff ea eb] at h4
            obtain ⟨i, i1, i2, i3, i4⟩ := mkRange_ends ea eb (fun x y => lo_lt_hi_bounds h3)
            rw [i1]
            exact fin i2 fun c => by
              simp only [In, i3, i4]
              exact ⟨fun h => ⟨⟨h.1, by order⟩, by order, h.2⟩, fun h => ⟨h.1.1, h.2.2⟩⟩
          · simp only [h4, if_false, Bool.false_eq_true]
            rw [isHigher_iff ea eb, not_lt] at h4
            obtain ⟨i, i1, i2, i3, i4⟩ := mkRange_ends ea ea (fun x y => ha.bounds)
            rw [i1]
            exact fin i2 fun c => by
              simp only [In, i3, i4]
              exact ⟨fun h => ⟨h, ⟨by order, by order⟩⟩, fun h => h.1⟩

/-- C114. The intersection of any two items that the constructors accept is exact, and never fails. -/
theorem C114_intersection (a b : Item) (ha : a.Accepted) (hb : b.Accepted) :
    ∃ s, (∀ lim, (VSet.item a).intersection lim (.item b) = .ok s) ∧ ∀ v, s.Mem v ↔ a.Mem v ∧ b.Mem v := by
  obtain ⟨s, h1, -, h2⟩ := intersectionItem_accepted ha hb
  refine ⟨s, fun lim => ?_, fun v => ?_⟩
  · rw [← h1]
    cases a <;> rfl
  · rw [mem_iff_cov, h2, mem_iff_cut, mem_iff_cut]; rfl

example : (VSet.item (exRange (some [1]) (some [1]) true true)).intersection 0 (.item (exRange none (some [1]) false true)) = .ok (.item (exPoint [1])) ∧
    (VSet.item (exRange (some [1]) (some [1]))).intersection 0 (.item (exRange none (some [2]) false)) =
      .ok (.item (exRange (some [1]) (some [1]))) := by decide +kernel

/-! ## Difference -/

theorem not_normal {i : Item} (h : i.Accepted) (hn : ¬ i.Normal) :
    ∃ x y, i.min = some x ∧ i.max = some y ∧ x.key = y.key := by
  cases i with
  | point v => exact absurd trivial hn
  | range r =>
    obtain ⟨h1, h2, h3⟩ := h
    by_contra hc
    refine hn ⟨h1, h2, fun a b ha hb => (vlt_iff _ _).2 (lt_of_le_of_ne ((vle_iff _ _).1 (h3 a b ha hb)) fun he => hc ⟨a, b, ha, hb, he⟩)⟩

theorem differenceBefore_accepted {a b : Item} {o : Option Item} (ea : a.EndsOk) (eb : b.EndsOk) (h : a.differenceBefore b = .ok o) :
    (∀ x, o = some x → x.Normal ∧ x.lo = a.lo ∧ x.hi = b.lo) ∧ (o = none → b.lo ≤ a.lo) := by
  unfold Item.differenceBefore at h
  by_cases h1 : a.isLower b = true
  · rw [if_neg (by simp [h1])] at h
    rw [isLower_iff ea eb] at h1
    cases hb : b.min with
    | none => simp only [Item.lo, loOf, hb] at h1; exact absurd h1 (by simp)
    | some y =>
      by_cases h2 : optEq a.min b.min = true
      · rw [if_pos h2] at h
        cases hm : a.min with
        | none => simp [hm, hb, optEq] at h2
        | some x =>
          rw [hm, hb, optEq_some] at h2
          simp only [hm, Item.pointOf, bind, Except.bind, Except.ok.injEq] at h
          subst h
          simp only [Item.lo, loOf, hm, hb, cutAt_lt] at h1
          obtain ⟨h3, h4⟩ : a.includeMin = true ∧ b.includeMin = false := by
            rcases h1 with h1 | h1
            · exact absurd h2 h1.ne
            · simpa using h1.2
          refine ⟨?_, by simp⟩
          rintro _ ⟨⟩
          refine ⟨trivial, ?_, ?_⟩
          · rw [point_lo]; simp only [Item.lo, loOf, hm, h3]; rfl
          · rw [point_hi]; simp only [Item.lo, loOf, hb, h4, cutAt, h2]; rfl
      · rw [if_neg h2] at h
        cases hi : Item.mkRange a.min b.min a.includeMin b.excludeMin with
        | error e => rw [hi] at h; simp [bind, Except.bind] at h
        | ok i =>
          rw [hi] at h
          simp only [bind, Except.bind, Except.ok.injEq] at h
          subst h
          obtain ⟨rfl, h3⟩ := (C114_accepted _ _ _ _ _).1 hi
          refine ⟨?_, by simp⟩
          rintro _ ⟨⟩
          refine ⟨⟨h3.1, h3.2.1, fun x z hx hz => ?_⟩, rfl, ?_⟩
          · refine (vlt_iff _ _).2 (lt_of_le_of_ne ((vle_iff _ _).1 (h3.2.2 x z hx hz)) fun he => h2 ?_)
            change a.min = some x at hx
            change b.min = some z at hz
            rw [hx, hz, optEq_some]; exact he
          · show hiOf b.min (!b.includeMin) = loOf b.min b.includeMin
            rw [hb]; rfl
  · rw [if_pos (by simpa using h1)] at h
    cases h
    exact ⟨by simp, fun _ => not_lt.1 fun h => h1 ((isLower_iff ea eb).2 h)⟩

theorem differenceAfter_accepted {a b : Item} {o : Option Item} (ea : a.EndsOk) (eb : b.EndsOk) (h : a.differenceAfter b = .ok o) :
    (∀ x, o = some x → x.Normal ∧ x.lo = b.hi ∧ x.hi = a.hi) ∧ (o = none → a.hi ≤ b.hi) := by
  unfold Item.differenceAfter at h
  by_cases h1 : a.isHigher b = true
  · rw [if_neg (by simp [h1])] at h
    rw [isHigher_iff ea eb] at h1
    cases hb : b.max with
    | none => simp only [Item.hi, hiOf, hb] at h1; exact absurd h1 (by simp)
    | some y =>
      by_cases h2 : optEq a.max b.max = true
      · rw [if_pos h2] at h
        cases hm : a.max with
        | none => simp [hm, hb, optEq] at h2
        | some x =>
          rw [hm, hb, optEq_some] at h2
          simp only [hm, Item.pointOf, bind, Except.bind, Except.ok.injEq] at h
          subst h
          simp only [Item.hi, hiOf, hm, hb, cutAt_lt] at h1
          obtain ⟨h3, h4⟩ : b.includeMax = false ∧ a.includeMax = true := by
            rcases h1 with h1 | h1
            · exact absurd h2.symm h1.ne
            · simpa using h1.2
          refine ⟨?_, by simp⟩
          rintro _ ⟨⟩
          refine ⟨trivial, ?_, ?_⟩
          · rw [point_lo]; simp only [Item.hi, hiOf, hb, h3, cutAt, h2]
          · rw [point_hi]; simp only [Item.hi, hiOf, hm, h4]
      · rw [if_neg h2] at h
        cases hi : Item.mkRange b.max a.max b.excludeMax a.includeMax with
        | error e => rw [hi] at h; simp [bind, Except.bind] at h
        | ok i =>
          rw [hi] at h
          simp only [bind, Except.bind, Except.ok.injEq] at h
          subst h
          obtain ⟨rfl, h3⟩ := (C114_accepted _ _ _ _ _).1 hi
          refine ⟨?_, by simp⟩
          rintro _ ⟨⟩
          refine ⟨⟨h3.1, h3.2.1, fun x z hx hz => ?_⟩, ?_, rfl⟩
          · refine (vlt_iff _ _).2 (lt_of_le_of_ne ((vle_iff _ _).1 (h3.2.2 x z hx hz)) fun he => h2 ?_)
            change b.max = some x at hx
            change a.max = some z at hz
            rw [hx, hz, optEq_some]; exact he.symm
          · show loOf b.max (!b.includeMax) = hiOf b.max b.includeMax
            rw [hb]
            simp [loOf, hiOf]
  · rw [if_pos (by simpa using h1)] at h
    cases h
    exact ⟨by simp, fun _ => not_lt.1 fun h => h1 ((isHigher_iff ea eb).2 h)⟩

theorem intersectsItem_accepted {a b : Item} (ha : a.Accepted) (hb : b.Accepted) :
    a.intersectsItem b = true ↔ a.lo < b.hi ∧ b.lo < a.hi := by
  cases a with
  | range r => cases b with
    | range s =>
      have h1 := isStrictlyLower_iff hb.endsOk ha.endsOk
      have h2 := isStrictlyHigher_iff hb.endsOk ha.endsOk
      simp only [Item.intersectsItem, Bool.and_eq_true, Bool.not_eq_true', Bool.eq_false_iff, ne_eq, h1, h2, not_le]
    | point v =>
      simp only [Item.intersectsItem, contains_iff, point_lo, point_hi, lt_after_iff, cut]
  | point v =>
    simp only [Item.intersectsItem, contains_iff, point_lo, point_hi, lt_after_iff, cut]
    tauto

theorem differenceItem_accepted {lim : Nat} {a b : Item} {s : VSet} (ha : a.Accepted) (hb : b.Accepted) (h : a.differenceItem lim b = .ok s)
    (c : Cut) : Cov s.extract c ↔ In a c ∧ ¬ In b c := by
  have ea := ha.endsOk
  have eb := hb.endsOk
  have one : ∀ i : Item, Cov (VSet.item i).extract c ↔ In i c := fun i => by simp [VSet.extract, In]
  cases a with
  | point v =>
    simp only [Item.differenceItem, Except.ok.injEq] at h
    subst h
    split
    · next h =>
      rw [contains_in] at h
      simp only [VSet.extract, cov_nil, false_iff]
      exact fun h1 => h1.2 ((point_in v c h1.1).2 h)
    · next h =>
      rw [contains_in] at h
      rw [one]
      exact ⟨fun h1 => ⟨h1, fun h2 => h ((point_in v c h1).1 h2)⟩, fun h1 => h1.1⟩
  | range r => cases b with
    | point v =>
      by_cases hn : (Item.range r).Normal
      · obtain ⟨l, d1, -, -, d4⟩ := differenceItem_cov hn (point_normal v)
        rw [d1] at h
        cases h
        rw [extract_ofItems, d4]; rfl
      · obtain ⟨x, y, hx, hy, hxy⟩ := not_normal ha hn
        generalize hA : Item.range r = a at *
        have hdef : a.differenceItem lim (.point v) = (if !a.contains v then .ok (.item a)
            else if optEq (some v) a.min then
              if a.excludeMin then .ok (.item a)
              else do .ok (.item (← Item.mkRange a.min a.max false a.includeMax))
            else if optEq (some v) a.max then
              if a.excludeMax then .ok (.item a)
              else do .ok (.item (← Item.mkRange a.min a.max a.includeMin false))
            else do
              let left ← Item.mkRange a.min (some v) a.includeMin false
              let right ← Item.mkRange (some v) a.max false a.includeMax
              Item.unionOf lim [left, right]) := by subst hA; rfl
        rw [hdef] at h
        by_cases h1 : a.contains v = true
        · rw [if_neg (by simp [h1])] at h
          rw [contains_in] at h1
          obtain ⟨h2, h3⟩ := h1
          have h2 : a.lo ≤ cutAt v false := h2
          have h3 : cutAt v false < a.hi := h3
          have h2' := h2
          have h3' := h3
          simp only [Item.lo, loOf, hx, cutAt_le] at h2'
          simp only [Item.hi, hiOf, hy, cutAt_lt] at h3'
          have hvx : v.key = x.key := by
            rcases h2' with h2' | h2'
            · rcases h3' with h3' | h3'
              · rw [hxy] at h2'; exact absurd h2' (not_lt_of_gt h3')
              · exact h3'.1.trans hxy.symm
            · exact h2'.1.symm
          have hinc : a.includeMin = true := by
            rcases h2' with h2' | h2'
            · rw [hvx] at h2'; exact absurd h2' (lt_irrefl _)
            · have := h2'.2; revert this; cases a.includeMin <;> simp
          rw [if_pos (by rw [hx, optEq_some]; exact hvx), if_neg (by simp [Item.excludeMin, hinc])] at h
          cases hi : Item.mkRange a.min a.max false a.includeMax with
          | error e => rw [hi] at h; cases h
          | ok i =>
            rw [hi] at h
            cases h
            obtain ⟨rfl, -⟩ := (C114_accepted _ _ _ _ _).1 hi
            rw [one]
            have e1 : Item.lo (.range ⟨a.min, a.max, false, a.includeMax⟩) = cutAt v true := by
              show loOf a.min false = _
              rw [hx]; simp [loOf, cutAt, hvx]
            have e2 : Item.hi (.range ⟨a.min, a.max, false, a.includeMax⟩) = a.hi := rfl
            have e3 : a.lo = cutAt v false := by simp [Item.lo, loOf, hx, hinc, cutAt, hvx]
            simp only [In, e1, e2, e3, point_lo, point_hi]
            have : cutAt v false < cutAt v true := (cutAt_lt _ _ _ _).2 (.inr ⟨rfl, rfl, rfl⟩)
            exact ⟨fun h6 => ⟨⟨by order, h6.2⟩, fun h7 => absurd h7.2 (not_lt.2 h6.1)⟩,
              fun h6 => ⟨not_lt.1 fun h7 => h6.2 ⟨h6.1.1, h7⟩, h6.1.2⟩⟩
        · rw [if_pos (by simpa using h1)] at h
          cases h
          rw [contains_in] at h1
          rw [one]
          exact ⟨fun h2 => ⟨h2, fun h3 => h1 ((point_in v c h3).1 h2)⟩, fun h2 => h2.1⟩
    | range t =>
      by_cases h1 : (Item.range r).intersectsItem (.range t) = true
      · rw [intersectsItem_accepted ha hb] at h1
        obtain ⟨h2, h3⟩ := h1
        simp only [Item.differenceItem] at h
        rw [if_neg (by rw [(intersectsItem_accepted ha hb).2 ⟨h2, h3⟩]; simp)] at h
        generalize Item.range r = a at *
        generalize Item.range t = b at *
        cases hbe : a.differenceBefore b with
        | error e => rw [hbe] at h; cases h
        | ok before => cases haf : a.differenceAfter b with
          | error e => rw [hbe, haf] at h; cases h
          | ok after =>
            rw [hbe, haf] at h
            simp only [bind, Except.bind] at h
            obtain ⟨p1, p2⟩ := differenceBefore_accepted ea eb hbe
            obtain ⟨q1, q2⟩ := differenceAfter_accepted ea eb haf
            cases before with
            | none => cases after with
              | none =>
                have := p2 rfl
                have := q2 rfl
                cases h
                simp only [VSet.extract, cov_nil, false_iff, In]
                rintro ⟨⟨h4, h5⟩, h6⟩
                exact h6 ⟨by order, by order⟩
              | some y =>
                have := p2 rfl
                obtain ⟨-, h4, h5⟩ := q1 y rfl
                cases h
                rw [one]
                simp only [In, h4, h5]
                exact ⟨fun h6 => ⟨⟨by order, h6.2⟩, fun h7 => absurd h7.2 (not_lt.2 h6.1)⟩,
                  fun h6 => ⟨not_lt.1 fun h7 => h6.2 ⟨by order, h7⟩, h6.1.2⟩⟩
            | some x =>
              obtain ⟨nx, h4, h5⟩ := p1 x rfl
              cases after with
              | none =>
                have := q2 rfl
                cases h
                rw [one]
                simp only [In, h4, h5]
                exact ⟨fun h6 => ⟨⟨h6.1, by order⟩, fun h7 => absurd h6.2 (not_lt.2 h7.1)⟩,
                  fun h6 => ⟨h6.1.1, not_le.1 fun h7 => h6.2 ⟨h7, by order⟩⟩⟩
              | some y =>
                obtain ⟨ny, h6, h7⟩ := q1 y rfl
                obtain ⟨-, h8⟩ := unionOf_items (lim := lim) (l := [x, y]) (s := s) ((allNormal_single ny).cons nx) (by
                  rw [← h]; simp [VSet.unionOf, Item.unionOf, VSet.extract])
                rw [h8]
                simp only [cov_cons, cov_nil, or_false, In, h4, h5, h6, h7]
                constructor
                · rintro (⟨h9, h10⟩ | ⟨h9, h10⟩)
                  · exact ⟨⟨h9, by order⟩, fun h11 => absurd h10 (not_lt.2 h11.1)⟩
                  · exact ⟨⟨by order, h10⟩, fun h11 => absurd h11.2 (not_lt.2 h9)⟩
                · rintro ⟨⟨h9, h10⟩, h11⟩
                  by_cases h12 : b.lo ≤ c
                  · exact .inr ⟨not_lt.1 fun h13 => h11 ⟨h12, h13⟩, h10⟩
                  · exact .inl ⟨h9, not_le.1 h12⟩
      · simp only [Item.differenceItem] at h
        rw [if_pos (by simpa using h1)] at h
        cases h
        rw [one]
        refine ⟨fun h2 => ⟨h2, fun h3 => h1 ((intersectsItem_accepted ha hb).2 ?_)⟩, fun h2 => h2.1⟩
        obtain ⟨h4, h5⟩ := h2
        obtain ⟨h6, h7⟩ := h3
        exact ⟨by order, by order⟩

/-- C114. The difference of any two items that the constructors accept is exact whenever it is returned. -/
theorem C114_difference (lim : Nat) (a b : Item) (s : VSet) (ha : a.Accepted) (hb : b.Accepted)
    (h : (VSet.item a).difference lim (.item b) = .ok s) (v : Version) : s.Mem v ↔ a.Mem v ∧ ¬ b.Mem v := by
  have h' : a.differenceItem lim b = .ok s := by rw [← h]; cases a <;> rfl
  rw [mem_iff_cov, mem_iff_cut, mem_iff_cut]
  exact differenceItem_accepted ha hb h' _

example : (VSet.item (exRange (some [1]) (some [1]) true true)).difference 0 (.item (exPoint [1])) = .ok (.item (exRange (some [1]) (some [1]) false true)) ∧
    (VSet.item (exRange (some [1]) (some [2]) true true)).difference 3 (.item (exRange (some [2]) (some [2]) true true)) =
      .ok (.item (exRange (some [1]) (some [2]) true false)) ∧
    (VSet.item (exRange (some [1]) (some [2]) true true)).difference 3 (.item (exRange (some [1]) (some [1]) false true)) =
      .error .recursionError := by decide +kernel

/-- C114. To take `(x, y]`, which holds nothing, from a range that starts with this version and goes on makes `difference` raise
`RecursionError`. -/
theorem C114_difference_violation (lim : Nat) (r : VRange) (v x y : Version) (hr : (Item.range r).Accepted) (hm : r.min = some v) (hi : r.includeMin = true)
    (hx : v ==ₚ x) (hy : v ==ₚ y) (h2 : ∀ b, r.max = some b → v <ₚ b) :
    (VSet.item (.range r)).difference lim (.item (.range ⟨some x, some y, false, true⟩)) = .error .recursionError := by
  rw [veq_iff] at hx hy
  have hb : (Item.range ⟨some x, some y, false, true⟩).Accepted :=
    ⟨by simp, by simp, fun a b h1 h2 => (vle_iff _ _).2 (by cases h1; cases h2; rw [← hx, ← hy])⟩
  have hnew : (Item.range ⟨some y, r.max, false, r.includeMax⟩).Normal :=
    ⟨by simp, hr.2.1, fun a b h3 h4 => (vlt_iff _ _).2 (by cases h3; rw [← hy]; exact (vlt_iff _ _).1 (h2 b h4))⟩
  have bhi : (Item.range ⟨some x, some y, false, true⟩).hi = cutAt v true := by
    simp [Item.hi, hiOf, Item.max, Item.includeMax, Item.fields, cutAt, hy]
  have blo : (Item.range ⟨some x, some y, false, true⟩).lo = cutAt v true := by
    simp [Item.lo, loOf, Item.min, Item.includeMin, Item.fields, cutAt, hx]
  have alo : (Item.range r).lo = cutAt v false := by
    simp [Item.lo, loOf, Item.min, Item.includeMin, Item.fields, hm, hi]
  have ahi : cutAt v true < (Item.range r).hi := by
    show _ < hiOf r.max r.includeMax
    cases hmx : r.max with
    | none => exact cutAt_lt_top _ _
    | some z => exact (cutAt_lt _ _ _ _).2 (.inl ((vlt_iff _ _).1 (h2 z hmx)))
  have step : cutAt v false < cutAt v true := (cutAt_lt _ _ _ _).2 (.inr ⟨rfl, rfl, rfl⟩)
  have hint := (intersectsItem_accepted hr hb).2 ⟨by rw [alo, bhi]; exact step, by rw [blo]; exact ahi⟩
  have hlow := (isLower_iff hr.endsOk hb.endsOk).2 (by rw [alo, blo]; exact step)
  have hhigh := (isHigher_iff hr.endsOk hb.endsOk).2 (by rw [bhi]; exact ahi)
  have hbe : (Item.range r).differenceBefore (.range ⟨some x, some y, false, true⟩) = .ok (some (.point v)) := by
    have o : optEq (Item.range r).min (Item.range ⟨some x, some y, false, true⟩).min = true := by
      show optEq r.min (some x) = true
      rw [hm, optEq_some]; exact hx
    rw [Item.differenceBefore, if_neg (by simp [hlow]), if_pos o]
    show (do .ok (some (← Item.pointOf r.min)) : Except PyErr (Option Item)) = _
    rw [hm]; rfl
  have haf : (Item.range r).differenceAfter (.range ⟨some x, some y, false, true⟩) = .ok (some (.range ⟨some y, r.max, false, r.includeMax⟩)) := by
    have o : optEq (Item.range r).max (Item.range ⟨some x, some y, false, true⟩).max = false := by
      show optEq r.max (some y) = false
      cases hmx : r.max with
      | none => rfl
      | some z =>
        rw [Bool.eq_false_iff, Ne, optEq_some, ← hy]
        exact ((vlt_iff _ _).1 (h2 z hmx)).ne'
    rw [Item.differenceAfter, if_neg (by simp [hhigh]), if_neg (by simp [o])]
    show (do .ok (some (← Item.mkRange (some y) r.max false r.includeMax)) : Except PyErr (Option Item)) = _
    rw [(C114_accepted _ _ _ _ _).2 ⟨rfl, hnew.accepted⟩]; rfl
  show (Item.range r).differenceItem lim (.range ⟨some x, some y, false, true⟩) = _
  simp only [Item.differenceItem, hint, hbe, haf, Bool.not_true, Bool.false_eq_true, if_false, bind, Except.bind]
  have nlo : (Item.range ⟨some y, r.max, false, r.includeMax⟩).lo = cutAt v true := by
    simp [Item.lo, loOf, Item.min, Item.includeMin, Item.fields, cutAt, hy]
  refine (mergeItems_spec ((allNormal_single hnew).cons (point_normal v))).2 ⟨.point v, by simp, trivial,
    ⟨.range ⟨some y, r.max, false, r.includeMax⟩, by simp, fun h => h, ?_⟩, ?_⟩ lim
  · rw [nlo, point_hi]
  · intro s hs hp
    simp only [List.mem_cons, List.not_mem_nil, or_false] at hs
    rcases hs with rfl | rfl
    · exact absurd trivial hp
    · rw [nlo, point_lo]
      rintro ⟨h3, -⟩
      order

example : (VSet.item (exRange (some [1]) none)).difference 7 (.item (exRange (some [1]) (some [1, 0]) false true)) = .error .recursionError := by
  decide +kernel

/-- C114. So is the complement. -/
theorem C114_complement (lim : Nat) (a : Item) (s : VSet) (ha : a.Accepted) (h : (VSet.item a).complement lim = .ok s) (v : Version) :
    s.Mem v ↔ ¬ a.Mem v := by
  have hu : universalItem.Accepted := ⟨by simp, by simp, by simp⟩
  rw [C114_difference lim universalItem a s hu ha h v]
  have : universalItem.Mem v := by simp [universalItem, Item.Mem, AboveMin, BelowMax]
  simp [this]

example : (VSet.item (exRange (some [1]) (some [1]) false true)).complement 2 = .ok .universal ∧
    (VSet.item (exRange (some [1]) (some [1]) true true)).complement 2 =
      .ok (.union [exRange none (some [1]) false false, exRange (some [1]) none false false]) := by decide +kernel

/-! ## Union -/

theorem bot_lt_hi (i : Item) : ⊥ < i.hi := by
  cases h : i.max <;> simp only [Item.hi, hiOf, h]
  · simp
  · exact bot_lt_cutAt _ _

theorem lo_lt_top (i : Item) : i.lo < ⊤ := by
  cases h : i.min <;> simp only [Item.lo, loOf, h]
  · simp
  · exact cutAt_lt_top _ _

theorem isUniversal_cuts {i : Item} (hu : i.isUniversal = true) : i.lo = ⊥ ∧ i.hi = ⊤ := by
  cases i with
  | point v => simp [Item.isUniversal] at hu
  | range r =>
    obtain ⟨mn, mx, a, b⟩ := r
    cases mn <;> cases mx <;>
      simp_all [Item.isUniversal, Item.isUnbounded, Item.min, Item.max, Item.fields, Item.lo, Item.hi, loOf, hiOf]

theorem merge_apart {a b : Item} (ha : a.Accepted) (hb : b.Accepted) (h1 : ¬ (a.lo < b.hi ∧ b.lo < a.hi)) (h2 : a.hi ≠ b.lo) (h3 : b.hi ≠ a.lo)
    (union : Item → Item → Except PyErr VSet) :
    ∃ l, VSet.mergeItems union [a, b] = .ok (.union l) ∧ (l = [a, b] ∨ l = [b, a]) := by
  have ua : a.isUniversal = false := by
    rw [Bool.eq_false_iff]
    intro hu
    obtain ⟨e1, e2⟩ := isUniversal_cuts hu
    rw [e1, e2] at h1
    exact h1 ⟨bot_lt_hi _, lo_lt_top _⟩
  have ub : b.isUniversal = false := by
    rw [Bool.eq_false_iff]
    intro hu
    obtain ⟨e1, e2⟩ := isUniversal_cuts hu
    rw [e1, e2] at h1
    exact h1 ⟨lo_lt_top _, bot_lt_hi _⟩
  have t1 : (a.intersectsItem b || a.isAdjacent b) = false := by
    rw [Bool.eq_false_iff, Ne, Bool.or_eq_true, intersectsItem_accepted ha hb, isAdjacent_iff ha.endsOk hb.endsOk]
    tauto
  have t2 : (b.intersectsItem a || b.isAdjacent a) = false := by
    rw [Bool.eq_false_iff, Ne, Bool.or_eq_true, intersectsItem_accepted hb ha, isAdjacent_iff hb.endsOk ha.endsOk]
    tauto
  cases h4 : b.lt a
  · refine ⟨[a, b], ?_, .inl rfl⟩
    simp [VSet.mergeItems, ua, ub, VSet.sortItems, List.insertionSort, List.orderedInsert, h4, VSet.mergeLoop, t1, bind, Except.bind, VSet.mkUnion]
  · refine ⟨[b, a], ?_, .inr rfl⟩
    simp [VSet.mergeItems, ua, ub, VSet.sortItems, List.insertionSort, List.orderedInsert, h4, VSet.mergeLoop, t2, bind, Except.bind, VSet.mkUnion]

theorem lo_le_max {a b : Item} (hb : b.Accepted) (h : a.lo ≤ b.lo) (x y : Version) (hx : a.min = some x) (hy : b.max = some y) : x.key ≤ y.key := by
  cases hm : b.min with
  | none =>
    simp only [Item.lo, loOf, hx, hm] at h
    exact absurd h (not_le.2 (bot_lt_cutAt _ _))
  | some z => exact (lo_le_bounds h hx hm).trans (hb.bounds hm hy)

theorem unionItem_ranges {r t : VRange} (ha : (Item.range r).Accepted) (hb : (Item.range t).Accepted) :
    ∃ s, (∀ lim, (Item.range r).unionItem (lim + 1) (.range t) = .ok s) ∧ ∀ c, Cov s.extract c ↔ In (.range r) c ∨ In (.range t) c := by
  generalize hA : Item.range r = a at *
  generalize hB : Item.range t = b at *
  have ea := ha.endsOk
  have eb := hb.endsOk
  have hdef : ∀ lim, a.unionItem (lim + 1) b = (if !a.isAdjacent b && !a.intersectsItem b then VSet.mergeItems (Item.unionItem lim) [a, b]
      else do
        .ok (.item (← Item.mkRange (if a.isLower b then a else b).min (if a.isHigher b then a else b).max
          (if a.isLower b then a else b).includeMin (if a.isHigher b then a else b).includeMax))) := by
    intro lim
    subst hA hB
    simp only [Item.unionItem]
    split
    · rfl
    · split <;> split <;> rfl
  by_cases h1 : (!a.isAdjacent b && !a.intersectsItem b) = true
  · have h1' := h1
    rw [Bool.and_eq_true, Bool.not_eq_true', Bool.not_eq_true', Bool.eq_false_iff, Bool.eq_false_iff, Ne, Ne, isAdjacent_iff ea eb,
      intersectsItem_accepted ha hb, not_or] at h1
    have key : ∀ lim, ∃ l, a.unionItem (lim + 1) b = .ok (.union l) ∧ (l = [a, b] ∨ l = [b, a]) := fun lim => by
      rw [hdef, if_pos h1']
      exact merge_apart ha hb h1.2 h1.1.1 h1.1.2 _
    obtain ⟨l, l1, l2⟩ := key 0
    refine ⟨.union l, fun lim => ?_, fun c => ?_⟩
    · have : ∀ n, a.unionItem (0 + 1 + n) b = .ok (.union l) := by
        intro n
        induction n with
        | zero => exact l1
        | succ n ih => exact unionItem_mono _ _ _ _ ih
      rw [Nat.add_comm lim]
      simpa using this lim
    · rcases l2 with rfl | rfl <;> simp [VSet.extract, In, or_comm]
  · have h1' := h1
    rw [Bool.and_eq_true, Bool.not_eq_true', Bool.not_eq_true', Bool.eq_false_iff, Bool.eq_false_iff, Ne, Ne, isAdjacent_iff ea eb,
      intersectsItem_accepted ha hb] at h1
    have hull : ∀ {i : Item}, i.lo ≤ a.lo → i.lo ≤ b.lo → (i.lo = a.lo ∨ i.lo = b.lo) → a.hi ≤ i.hi → b.hi ≤ i.hi → (i.hi = a.hi ∨ i.hi = b.hi) →
        ∀ c, In i c ↔ In a c ∨ In b c := by
      intro i p1 p2 p3 p4 p5 p6 c
      constructor
      · rintro ⟨h2, h3⟩
        by_contra hc
        simp only [In, not_or, not_and, not_lt] at hc
        obtain ⟨h4, h5⟩ := hc
        apply h1
        constructor
        · rintro (h6 | h6)
          · by_cases h7 : a.lo ≤ c
            · have := h4 h7
              have := h5 (by order)
              rcases p6 with p6 | p6 <;> order
            · have : b.lo ≤ c := by rcases p3 with p3 | p3 <;> order
              have := h5 this
              rcases p6 with p6 | p6 <;> order
          · by_cases h7 : b.lo ≤ c
            · have := h5 h7
              have := h4 (by order)
              rcases p6 with p6 | p6 <;> order
            · have : a.lo ≤ c := by rcases p3 with p3 | p3 <;> order
              have := h4 this
              rcases p6 with p6 | p6 <;> order
        · rintro ⟨h6, h7⟩
          by_cases h8 : a.lo ≤ c
          · have := h4 h8
            have := h5 (by order)
            rcases p6 with p6 | p6 <;> order
          · have : b.lo ≤ c := by rcases p3 with p3 | p3 <;> order
            have := h5 this
            have := h4 (by order)
            order
      · rintro (⟨h2, h3⟩ | ⟨h2, h3⟩)
        · exact ⟨by order, by order⟩
        · exact ⟨by order, by order⟩
    simp only [hdef, if_neg h1']
    by_cases h2 : a.isLower b = true <;> by_cases h3 : a.isHigher b = true <;> simp only [h2, h3, if_true, if_false, Bool.false_eq_true] <;>
      rw [isLower_iff ea eb] at h2 <;> rw [isHigher_iff ea eb] at h3
    · obtain ⟨i, i1, i2, i3, i4⟩ := mkRange_ends ea ea (fun x y => ha.bounds)
      rw [i1]
      refine ⟨.item i, fun _ => rfl, fun c => ?_⟩
      simp only [VSet.extract, cov_cons, cov_nil, or_false]
      exact hull (by order) (by order) (.inl i3) (by order) (by order) (.inl i4) c
    · obtain ⟨i, i1, i2, i3, i4⟩ := mkRange_ends ea eb (lo_le_max hb h2.le)
      rw [i1]
      refine ⟨.item i, fun _ => rfl, fun c => ?_⟩
      simp only [VSet.extract, cov_cons, cov_nil, or_false]
      exact hull (by order) (by order) (.inl i3) (by order) (by order) (.inr i4) c
    · obtain ⟨i, i1, i2, i3, i4⟩ := mkRange_ends eb ea (lo_le_max ha (not_lt.1 h2))
      rw [i1]
      refine ⟨.item i, fun _ => rfl, fun c => ?_⟩
      simp only [VSet.extract, cov_cons, cov_nil, or_false]
      exact hull (by order) (by order) (.inr i3) (by order) (by order) (.inl i4) c
    · obtain ⟨i, i1, i2, i3, i4⟩ := mkRange_ends eb eb (fun x y => hb.bounds)
      rw [i1]
      refine ⟨.item i, fun _ => rfl, fun c => ?_⟩
      simp only [VSet.extract, cov_cons, cov_nil, or_false]
      exact hull (by order) (by order) (.inr i3) (by order) (by order) (.inr i4) c

theorem cutAt_inj {v w : Version} {b c : Bool} (h : cutAt v b = cutAt w c) : v.key = w.key ∧ b = c := by
  simp only [cutAt, WithBot.coe_inj, WithTop.coe_inj, EmbeddingLike.apply_eq_iff_eq, Prod.mk.injEq] at h
  exact h

/-- A range with equal bounds and a version other than them. -/
theorem unionItem_apart {lim : Nat} {a : Item} {v x y : Version} {s : VSet} (ha : a.Accepted) (hx : a.min = some x) (hy : a.max = some y) (hxy : x.key = y.key)
    (hv : v.key ≠ x.key) (hs : VSet.mergeItems (Item.unionItem lim) [a, .point v] = .ok s ∨ VSet.mergeItems (Item.unionItem lim) [.point v, a] = .ok s)
    (c : Cut) : Cov s.extract c ↔ In a c ∨ In (.point v) c := by
  have el : a.lo = cutAt x (!a.includeMin) := by simp [Item.lo, loOf, hx]
  have eh : a.hi = cutAt y a.includeMax := by simp [Item.hi, hiOf, hy]
  have g1 : ¬ (a.lo < (Item.point v).hi ∧ (Item.point v).lo < a.hi) := by
    rw [el, eh, point_lo, point_hi, cutAt_lt, cutAt_lt]
    rintro ⟨h1 | h1, h2 | h2⟩
    · rw [hxy] at h1; exact absurd h1 (not_lt_of_gt h2)
    · exact hv (h2.1.trans hxy.symm)
    · exact hv h1.1.symm
    · exact hv h1.1.symm
  have g2 : a.hi ≠ (Item.point v).lo := by
    rw [eh, point_lo]
    exact fun h => hv ((cutAt_inj h).1.symm.trans hxy.symm)
  have g3 : (Item.point v).hi ≠ a.lo := by
    rw [el, point_hi]
    exact fun h => hv (cutAt_inj h).1
  rcases hs with hs | hs
  · obtain ⟨l, l1, l2⟩ := merge_apart ha (b := .point v) trivial g1 g2 g3 (Item.unionItem lim)
    rw [l1] at hs
    cases hs
    rcases l2 with rfl | rfl <;> simp [VSet.extract, In, or_comm]
  · obtain ⟨l, l1, l2⟩ := merge_apart (a := .point v) trivial ha (fun h => g1 h.symm) g3 g2 (Item.unionItem lim)
    rw [l1] at hs
    cases hs
    rcases l2 with rfl | rfl <;> simp [VSet.extract, In, or_comm]

/-- A version equal to the bounds of a range that holds something is in it. -/
theorem equal_in {r : VRange} {v x y : Version} (hx : (Item.range r).min = some x) (hy : (Item.range r).max = some y) (hxy : x.key = y.key) (hv : v.key = x.key)
    (hn : ¬ (Item.range r).Nothing) : In (.range r) (cut v) := by
  change r.min = some x at hx
  change r.max = some y at hy
  obtain ⟨h1, h2⟩ : r.includeMin = true ∧ r.includeMax = true := by
    by_contra hc
    refine hn ⟨x, y, hx, hy, (veq_iff _ _).2 hxy, ?_⟩
    revert hc
    cases r.includeMin <;> cases r.includeMax <;> simp
  constructor
  · show loOf r.min r.includeMin ≤ _
    rw [hx, h1]; simp [loOf, cut, cutAt, hv]
  · show _ < hiOf r.max r.includeMax
    rw [hy, h2]
    exact (cutAt_lt _ _ _ _).2 (.inr ⟨hv.trans hxy, rfl, rfl⟩)

theorem apart_contains {r : VRange} {v x y : Version} (hx : (Item.range r).min = some x) (hy : (Item.range r).max = some y) (hxy : x.key = y.key) (hv : v.key ≠ x.key) :
    (Item.range r).contains v = false := by
  rw [Bool.eq_false_iff, Ne, contains_in]
  change r.min = some x at hx
  change r.max = some y at hy
  rintro ⟨h1, h2⟩
  change loOf r.min r.includeMin ≤ cutAt v false at h1
  change cutAt v false < hiOf r.max r.includeMax at h2
  rw [hx] at h1
  rw [hy] at h2
  simp only [loOf, hiOf, cutAt_le, cutAt_lt] at h1 h2
  rcases h1 with h1 | h1
  · rcases h2 with h2 | h2
    · rw [hxy] at h1; exact absurd h1 (not_lt_of_gt h2)
    · exact hv (h2.1.trans hxy.symm)
  · exact hv h1.1.symm

/-- A range that holds nothing, and a version equal to its bounds. -/
def Item.Swallows (a b : Item) : Prop := ∃ r v x, a = .range r ∧ b = .point v ∧ a.Nothing ∧ r.min = some x ∧ v ==ₚ x

/-- C114. The union of two ranges that the constructor accepts is exact, and never fails. -/
theorem C114_union_ranges (r t : VRange) (ha : (Item.range r).Accepted) (hb : (Item.range t).Accepted) :
    ∃ s, (∀ lim, (VSet.item (.range r)).unionWith (lim + 1) (.item (.range t)) = .ok s) ∧
      ∀ v, s.Mem v ↔ (Item.range r).Mem v ∨ (Item.range t).Mem v := by
  obtain ⟨s, h1, h2⟩ := unionItem_ranges ha hb
  refine ⟨s, h1, fun v => ?_⟩
  rw [mem_iff_cov, mem_iff_cut, mem_iff_cut]
  exact h2 _

example : (VSet.item (exRange (some [1]) (some [1]) false true)).unionWith 1 (.item (exRange (some [1]) (some [2]))) =
      .ok (.item (exRange (some [1]) (some [2]))) ∧
    (VSet.item (exRange (some [1]) (some [1]) true true)).unionWith 1 (.item (exRange none (some [1]) false false)) =
      .ok (.item (exRange none (some [1]) false true)) := by decide +kernel

/-- C114. The union of any two items that the constructors accept is exact whenever it is returned, but for a range that holds nothing
and a version equal to its bounds. -/
theorem C114_union (lim : Nat) (a b : Item) (s : VSet) (ha : a.Accepted) (hb : b.Accepted) (h1 : ¬ a.Swallows b) (h2 : ¬ b.Swallows a)
    (h : (VSet.item a).unionWith lim (.item b) = .ok s) (v : Version) : s.Mem v ↔ a.Mem v ∨ b.Mem v := by
  suffices hc : ∀ c, Cov s.extract c ↔ In a c ∨ In b c by
    rw [mem_iff_cov, mem_iff_cut, mem_iff_cut]
    exact hc _
  intro c
  have both : a.Normal → b.Normal → (Cov s.extract c ↔ In a c ∨ In b c) := by
    intro na nb
    have := (unionWith_ok (a := .item a) (b := .item b) na nb h).2 c
    simpa [VSet.Cov, VSet.extract, In] using this
  have one : ∀ i : Item, Cov (VSet.item i).extract c ↔ In i c := fun i => by simp [VSet.extract, In]
  change a.unionItem lim b = .ok s at h
  cases lim with
  | zero => simp [Item.unionItem] at h
  | succ lim => cases a with
    | point p => cases b with
      | point q => exact both trivial trivial
      | range t =>
        by_cases nb : (Item.range t).Normal
        · exact both trivial nb
        · obtain ⟨x, y, hx, hy, hxy⟩ := not_normal hb nb
          by_cases hp : p.key = x.key
          · have hin := equal_in hx hy hxy hp fun hn => h2 ⟨t, p, x, rfl, rfl, hn, hx, (veq_iff _ _).2 hp⟩
            simp only [Item.unionItem, (contains_in _ _).2 hin, if_true, Except.ok.injEq] at h
            subst h
            rw [one]
            exact ⟨.inr, fun h3 => h3.elim (fun h4 => (point_in p c h4).2 hin) id⟩
          · simp only [Item.unionItem, apart_contains hx hy hxy hp, Bool.false_eq_true, if_false] at h
            rw [unionItem_apart hb hx hy hxy hp (.inr h), or_comm]
    | range r => cases b with
      | range t =>
        obtain ⟨s', h3, h4⟩ := unionItem_ranges ha hb
        rw [h3] at h
        cases h
        exact h4 c
      | point p =>
        by_cases na : (Item.range r).Normal
        · exact both na trivial
        · obtain ⟨x, y, hx, hy, hxy⟩ := not_normal ha na
          by_cases hp : p.key = x.key
          · have hin := equal_in hx hy hxy hp fun hn => h1 ⟨r, p, x, rfl, rfl, hn, hx, (veq_iff _ _).2 hp⟩
            simp only [Item.unionItem, (contains_in _ _).2 hin, if_true, Except.ok.injEq] at h
            subst h
            rw [one]
            exact ⟨.inl, fun h3 => h3.elim id fun h4 => (point_in p c h4).2 hin⟩
          · have o1 : optEq (some p) (Item.range r).min = false := by
              rw [Bool.eq_false_iff, Ne, hx, optEq_some]; exact hp
            have o2 : optEq (some p) (Item.range r).max = false := by
              rw [Bool.eq_false_iff, Ne, hy, optEq_some, ← hxy]; exact hp
            simp only [Item.unionItem, apart_contains hx hy hxy hp, o1, o2, Bool.false_eq_true, if_false] at h
            exact unionItem_apart ha hx hy hxy hp (.inl h) c

example : (VSet.item (exRange (some [1]) (some [1]))).unionWith 2 (.item (exPoint [2])) = .ok (.union [exRange (some [1]) (some [1]), exPoint [2]]) ∧
    (VSet.item (exPoint [1, 0])).unionWith 2 (.item (exRange (some [1]) (some [1]) true true)) =
      .ok (.item (exRange (some [1]) (some [1]) true true)) := by decide +kernel

/-- C114. Beside a range that holds nothing, `union` loses a version equal to its bounds when the range is `[x, y)` or `(x, y)`; on the left,
the version makes `union` raise `RecursionError` when the range is `(x, y]` or `(x, y)`. -/
theorem C114_union_violation (v x y : Version) (hx : v ==ₚ x) (hy : v ==ₚ y) :
    (∀ includeMin, ∃ s, (∀ lim, (VSet.item (.range ⟨some x, some y, includeMin, false⟩)).unionWith (lim + 1) (.item (.point v)) = .ok s) ∧ ¬ s.Mem v) ∧
    (∀ lim includeMax, (VSet.item (.point v)).unionWith lim (.item (.range ⟨some x, some y, false, includeMax⟩)) = .error .recursionError) := by
  rw [veq_iff] at hx hy
  have hacc : ∀ i j, (Item.range ⟨some x, some y, i, j⟩).Accepted := fun i j =>
    ⟨by simp, by simp, fun a b h1 h2 => (vle_iff _ _).2 (by cases h1; cases h2; rw [← hx, ← hy])⟩
  constructor
  · intro includeMin
    have nc : ∀ i, ¬ (Item.range ⟨some x, some y, i, false⟩).contains v = true := by
      intro i
      rw [contains_in]
      rintro ⟨-, h2⟩
      change cutAt v false < cutAt y false at h2
      simp [cutAt_lt, hy] at h2
    refine ⟨.item (.range ⟨some x, some y, true, false⟩), fun lim => ?_, ?_⟩
    · show Item.unionItem (lim + 1) _ _ = _
      simp only [Item.unionItem]
      rw [if_neg (nc _), if_pos (by
        show optEq (some v) (some x) = true
        rw [optEq_some]; exact hx)]
      show (do .ok (.item (← Item.mkRange (some x) (some y) true false)) : Except PyErr VSet) = _
      rw [(C114_accepted _ _ _ _ _).2 ⟨rfl, hacc true false⟩]; rfl
    · rw [mem_iff_cov]
      have := nc true
      rw [contains_in] at this
      simpa [VSet.extract, In] using this
  · intro lim includeMax
    show Item.unionItem lim _ _ = _
    induction lim with
    | zero => rfl
    | succ lim ih =>
      generalize hB : Item.range ⟨some x, some y, false, includeMax⟩ = b at *
      have hb : b.Accepted := hB ▸ hacc false includeMax
      have el : b.lo = cutAt v true := by subst hB; simp [Item.lo, loOf, Item.min, Item.includeMin, Item.fields, cutAt, hx]
      have c1 : b.contains v = false := by
        rw [Bool.eq_false_iff, Ne, contains_in]
        rintro ⟨h1, -⟩
        rw [el] at h1
        change cutAt v true ≤ cutAt v false at h1
        simp [cutAt_le] at h1
      have hdef : (Item.point v).unionItem (lim + 1) b = (if b.contains v then .ok (.item b) else VSet.mergeItems (Item.unionItem lim) [.point v, b]) := by
        subst hB; rfl
      have hadj : (Item.point v).isAdjacent b = true := by
        rw [isAdjacent_iff (point_ends v) hb.endsOk, el, point_hi]
        exact .inl rfl
      have hu : b.isUniversal = false := by subst hB; rfl
      have hp : (Item.point v).isUniversal = false := rfl
      have hlt : b.lt (.point v) = false := by
        rw [Bool.eq_false_iff, Ne, item_lt_iff hb.endsOk (point_ends v), el, point_lo, cutAt_lt]
        simp [cutAt]
      rw [hdef, c1]
      simp [VSet.mergeItems, hu, hp, VSet.sortItems, List.insertionSort, List.orderedInsert, hlt, VSet.mergeLoop, hadj, ih, bind, Except.bind]

example : (VSet.item (exRange (some [1]) (some [1]) false false)).unionWith 1 (.item (exPoint [1])) = .ok (.item (exRange (some [1]) (some [1]))) ∧
    (VSet.item (exPoint [1])).unionWith 9 (.item (exRange (some [1]) (some [1]) false true)) = .error .recursionError := by decide +kernel

/-! ## Questions -/

theorem nothing_iff {i : Item} (h : i.Accepted) : i.Nothing ↔ i.hi ≤ i.lo := by
  cases i with
  | point v => simp [Item.Nothing, point_lo, point_hi, cutAt_le]
  | range r =>
    obtain ⟨mn, mx, a, b⟩ := r
    cases mn with
    | none => exact ⟨fun h => by simp [Item.Nothing] at h, fun h => absurd h (not_le.2 (bot_lt_hi (.range ⟨none, mx, a, b⟩)))⟩
    | some x => cases mx with
      | none => exact ⟨fun h => by simp [Item.Nothing] at h, fun h => absurd h (not_le.2 (lo_lt_top (.range ⟨some x, none, a, b⟩)))⟩
      | some y =>
        have hxy : x.key ≤ y.key := h.bounds rfl rfl
        have e : (Item.range ⟨some x, some y, a, b⟩).hi ≤ (Item.range ⟨some x, some y, a, b⟩).lo ↔ cutAt y b ≤ cutAt x (!a) := Iff.rfl
        rw [e, cutAt_le]
        simp only [Item.Nothing, Option.some.injEq]
        constructor
        · rintro ⟨_, _, rfl, rfl, h1, h2⟩
          refine .inr ⟨((veq_iff _ _).1 h1).symm, ?_⟩
          cases a <;> cases b <;> simp_all
        · rintro (h1 | ⟨h1, h2⟩)
          · exact absurd h1 (not_lt_of_ge hxy)
          · refine ⟨x, y, rfl, rfl, (veq_iff _ _).2 h1.symm, ?_⟩
            cases a <;> cases b <;> simp_all

theorem isEmpty_nothing {i : Item} : i.isEmpty = true ↔ i.Nothing := by
  cases i with
  | point v => simp [Item.isEmpty, Item.Nothing]
  | range r =>
    obtain ⟨mn, mx, a, b⟩ := r
    simp only [Item.isEmpty, Item.isEmptyOrPoint, Item.isClosed, Item.comparableMin, Item.comparableMax, Item.min, Item.max, Item.fields,
      Item.includeMin, Item.includeMax, Bool.and_eq_true, eeq_iff, Item.Nothing]
    cases mn with
    | none => cases mx <;> simp [extKey]
    | some x => cases mx with
      | none => simp [extKey]
      | some y =>
        rw [ext_fin_eq]
        cases a <;> cases b <;> simp [veq_iff]

/-- C114. `is_empty` tells the ranges that hold nothing. -/
theorem C114_is_empty (a : Item) (ha : a.Accepted) (hw : a.Wf) : (a.isEmpty = true ↔ a.Nothing) ∧ (a.Nothing ↔ ∀ v : Version, v.Wf → ¬ a.Mem v) := by
  refine ⟨isEmpty_nothing, fun h v _ hv => ?_, fun h => by_contra fun hn => ?_⟩
  · rw [mem_iff_cut] at hv
    rw [nothing_iff ha] at h
    obtain ⟨h1, h2⟩ := hv
    order
  · rw [nothing_iff ha, not_le] at hn
    have hc : VSet.Cov (.item a) a.lo := by simpa [VSet.Cov, VSet.extract] using hn
    obtain ⟨v, h1, h2, -⟩ := (overlap_versions (a := .item a) (b := .item a) hw hw).1 ⟨_, hc, hc⟩
    exact h v h1 h2

example : (exRange (some [1]) (some [1]) false true).isEmpty = true ∧ (exRange (some [1]) (some [1]) true true).isEmpty = false ∧
    (exRange (some [1]) (some [1, 1]) false false).isEmpty = false := by decide +kernel

/-- C114. `includes` answers True only when it should; and when it should, if the receiver is a range and the argument holds something. -/
theorem C114_includes (a b : Item) (ha : a.Accepted) (hb : b.Accepted) :
    ((VSet.item a).includes (.item b) = true → ∀ v, b.Mem v → a.Mem v) ∧
    (∀ r, a = .range r → a.Wf → b.Wf → ¬ b.Nothing → (∀ v : Version, v.Wf → b.Mem v → a.Mem v) → (VSet.item a).includes (.item b) = true) := by
  have e : (VSet.item a).includes (.item b) = a.includesItem b := by cases a <;> rfl
  rw [e]
  constructor
  · intro h v
    rw [mem_iff_cut, mem_iff_cut]
    suffices hs : ∀ c, In b c → In a c from hs _
    intro c hc
    cases a with
    | range r => cases b with
      | range t =>
        simp only [Item.includesItem, Bool.and_eq_true, Bool.not_eq_true', Bool.eq_false_iff, ne_eq, isLower_iff hb.endsOk ha.endsOk,
          isHigher_iff hb.endsOk ha.endsOk, not_lt] at h
        obtain ⟨h1, h2⟩ := hc
        exact ⟨by order, by order⟩
      | point p =>
        simp only [Item.includesItem, contains_in] at h
        exact (point_in p c hc).2 h
    | point p => cases b with
      | range t =>
        simp only [Item.includesItem, isEmpty_nothing, nothing_iff hb] at h
        obtain ⟨h1, h2⟩ := hc
        order
      | point q =>
        simp only [Item.includesItem, Item.isEmpty, Bool.false_or, contains_in] at h
        exact (point_in q c hc).2 h
  · rintro r rfl wa wb hn h
    have hs := (subset_versions (a := .item (.range r)) (b := .item b) wa wb).2 h
    have hs : ∀ c, In b c → In (.range r) c := fun c hc => by
      have := hs c (by simpa [VSet.Cov, VSet.extract, In] using hc)
      simpa [VSet.Cov, VSet.extract, In] using this
    rw [nothing_iff hb, not_le] at hn
    have h1 := hs b.lo ⟨le_rfl, hn⟩
    cases b with
    | point p => simp only [Item.includesItem, contains_in]; exact h1
    | range t =>
      simp only [Item.includesItem, Bool.and_eq_true, Bool.not_eq_true', Bool.eq_false_iff, ne_eq, isLower_iff hb.endsOk ha.endsOk,
        isHigher_iff hb.endsOk ha.endsOk, not_lt]
      refine ⟨h1.1, not_lt.1 fun h2 => ?_⟩
      exact absurd (hs (Item.hi (.range r)) ⟨h1.2.le, h2⟩).2 (lt_irrefl _)

example : (VSet.item (exRange (some [1]) (some [1]) true true)).includes (.item (exPoint [1])) = true ∧
    (VSet.item (exRange none (some [2]) false)).includes (.item (exRange (some [1]) (some [1]) true true)) = true ∧
    (VSet.item (exRange none (some [2]) false)).includes (.item (exRange (some [2]) (some [2]) false true)) = false := by decide +kernel

/-- C114. `intersects` answers False only when it should; and when it should, if both items hold something. -/
theorem C114_intersects (a b : Item) (ha : a.Accepted) (hb : b.Accepted) :
    ((VSet.item a).intersects (.item b) = false → ∀ v, ¬ (a.Mem v ∧ b.Mem v)) ∧
    (a.Wf → b.Wf → ¬ a.Nothing → ¬ b.Nothing → (∀ v : Version, v.Wf → ¬ (a.Mem v ∧ b.Mem v)) → (VSet.item a).intersects (.item b) = false) := by
  have e : (VSet.item a).intersects (.item b) = a.intersectsItem b := by cases a <;> rfl
  rw [e, Bool.eq_false_iff, Ne, intersectsItem_accepted ha hb]
  constructor
  · intro h v
    rw [mem_iff_cut, mem_iff_cut]
    rintro ⟨⟨h1, h2⟩, h3, h4⟩
    exact h ⟨by order, by order⟩
  · rintro wa wb na nb h ⟨h1, h2⟩
    rw [nothing_iff ha, not_le] at na
    rw [nothing_iff hb, not_le] at nb
    have hc : ∃ c, In a c ∧ In b c := by
      rcases le_total a.lo b.lo with h3 | h3
      · exact ⟨b.lo, ⟨h3, h2⟩, le_rfl, nb⟩
      · exact ⟨a.lo, ⟨le_rfl, na⟩, h3, h1⟩
    obtain ⟨c, hc1, hc2⟩ := hc
    obtain ⟨v, h3, h4⟩ := (overlap_versions (a := .item a) (b := .item b) wa wb).1
      ⟨c, by simpa [VSet.Cov, VSet.extract, In] using hc1, by simpa [VSet.Cov, VSet.extract, In] using hc2⟩
    exact h v h3 h4

example : (VSet.item (exRange (some [1]) (some [1]) true true)).intersects (.item (exRange none (some [1]) false false)) = false ∧
    (VSet.item (exRange (some [1]) (some [1]) true true)).intersects (.item (exRange none (some [1]) false true)) = true := by decide +kernel

/-- C114. A range that holds nothing intersects every range that goes below and above its bound. -/
theorem C114_intersects_violation (r : VRange) (v x y : Version) (hr : (Item.range r).Accepted) (hx : v ==ₚ x) (hy : v ==ₚ y) (includeMin includeMax : Bool)
    (h1 : ∀ a, r.min = some a → a <ₚ v) (h2 : ∀ b, r.max = some b → v <ₚ b) :
    (VSet.item (.range r)).intersects (.item (.range ⟨some x, some y, includeMin, includeMax⟩)) = true := by
  rw [veq_iff] at hx hy
  have a1 : ∀ b, cutAt x b < hiOf r.max r.includeMax := fun b => by
    cases hm : r.max with
    | none => exact cutAt_lt_top _ _
    | some z => exact (cutAt_lt _ _ _ _).2 (.inl (hx ▸ (vlt_iff _ _).1 (h2 z hm)))
  have a2 : ∀ b, loOf r.min r.includeMin < cutAt y b := fun b => by
    cases hm : r.min with
    | none => exact bot_lt_cutAt _ _
    | some z => exact (cutAt_lt _ _ _ _).2 (.inl (hy ▸ (vlt_iff _ _).1 (h1 z hm)))
  have hb : (Item.range ⟨some x, some y, includeMin, includeMax⟩).Accepted :=
    ⟨by simp, by simp, fun a b h1 h2 => (vle_iff _ _).2 (by cases h1; cases h2; rw [← hx, ← hy])⟩
  exact (intersectsItem_accepted hr hb).2 ⟨a2 _, a1 _⟩

example : (VSet.item (exRange (some [0]) none)).intersects (.item (exRange (some [1]) (some [1]))) = true ∧
    (exRange (some [1]) (some [1])).isEmpty = true := by decide +kernel

/-- C114. The closed range of one version equals the single version, but the two answer `includes` differently. -/
theorem C114_equal_violation (v w : Version) (h : v ==ₚ w) :
    (VSet.item (.point v)).eq (.item (.range ⟨some w, some w, true, true⟩)) = true ∧
    (VSet.item (.range ⟨some w, some w, true, true⟩)).includes (.item (.range ⟨some w, some w, true, true⟩)) = true ∧
    (VSet.item (.point v)).includes (.item (.range ⟨some w, some w, true, true⟩)) = false := by
  have hw : (Item.range ⟨some w, some w, true, true⟩).Accepted :=
    ⟨by simp, by simp, fun a b h1 h2 => (vle_iff _ _).2 (by cases h1; cases h2; rfl)⟩
  refine ⟨?_, ?_, ?_⟩
  · rw [veq_iff] at h
    have := (optEq_some v w).2 h
    simp only [VSet.eq, Item.eq, Item.min, Item.max, Item.includeMin, Item.includeMax, Item.fields]
    simp [this]
  · show (Item.range _).includesItem (.range _) = true
    simp only [Item.includesItem, Bool.and_eq_true, Bool.not_eq_true', Bool.eq_false_iff, ne_eq, isLower_iff hw.endsOk hw.endsOk,
        isHigher_iff hw.endsOk hw.endsOk, not_lt, le_rfl, and_self]
  · show (Item.range ⟨some w, some w, true, true⟩).isEmpty = false
    rw [Bool.eq_false_iff, Ne, isEmpty_nothing]
    simp [Item.Nothing]

example : (VSet.item (exPoint [1])).eq (.item (exRange (some [1]) (some [1]) true true)) = true ∧
    (VSet.item (exRange (some [1]) (some [1]) true true)).includes (.item (exRange (some [1]) (some [1]) true true)) = true ∧
    (VSet.item (exPoint [1])).includes (.item (exRange (some [1]) (some [1]) true true)) = false := by decide +kernel

/-! ## Strings and specifiers -/

/-- C114. Strings and specifiers are made of a range as of the set in normal form with the same versions. -/
theorem C114_same (a : Item) (ha : a.Accepted) :
    ∃ x : VSet, x.Normal ∧ (∀ v, x.Mem v ↔ a.Mem v) ∧ ∀ lim, (VSet.item a).toStr lim = x.toStr lim ∧ (VSet.item a).toShortStr lim = x.toShortStr lim ∧
      Specifier.fromSet lim (.item a) = Specifier.fromSet lim x := by
  cases a with
  | point v => exact ⟨.item (.point v), trivial, fun _ => Iff.rfl, fun _ => ⟨rfl, rfl, rfl⟩⟩
  | range r =>
    by_cases he : (Item.range r).isEmpty = true
    · refine ⟨.empty, trivial, fun v => ?_, fun lim => ⟨?_, ?_, ?_⟩⟩
      · rw [isEmpty_nothing, nothing_iff ha] at he
        rw [mem_iff_cov, mem_iff_cut]
        simp only [VSet.extract, cov_nil, false_iff]
        rintro ⟨h1, h2⟩
        order
      · simp [VSet.toStr, Item.toStr, he]
      · simp [VSet.toShortStr, Item.toShortStr, he]
      · simp [Specifier.fromSet, Specifier.fromItem, Specifier.tryRangeSimple, he, bind, Except.bind]
    · by_cases hp : (Item.range r).isPoint = true
      · obtain ⟨v, h1, h2, h3⟩ := isPoint_ends ha.endsOk hp
        have hu : (Item.range r).isUniversal = false := by
          rw [Bool.eq_false_iff]
          intro hu
          have := (isUniversal_cuts hu).1
          rw [h2] at this
          exact absurd this (bot_lt_cutAt _ _).ne'
        refine ⟨.item (.point v), trivial, fun w => ?_, fun lim => ⟨?_, ?_, ?_⟩⟩
        · rw [mem_iff_cov, mem_iff_cut]
          simp [VSet.extract, h2, h3, point_lo, point_hi]
        · simp [VSet.toStr, Item.toStr, he, hp, h1, bind, Except.bind]
        · simp [VSet.toShortStr, Item.toShortStr, he, hp, h1, bind, Except.bind]
        · simp [Specifier.fromSet, Specifier.fromItem, Specifier.tryRangeSimple, he, hp, hu, h1, bind, Except.bind]
          cases Specifier.pinVersion v <;> rfl
      · refine ⟨.item (.range r), by_contra fun hn => ?_, fun _ => Iff.rfl, fun _ => ⟨rfl, rfl, rfl⟩⟩
        obtain ⟨x, y, hx, hy, hxy⟩ := not_normal ha hn
        have e : (Item.range r).isEmptyOrPoint = true := by
          rw [Item.isEmptyOrPoint, eeq_iff, Item.comparableMin, Item.comparableMax, hx, hy]
          exact (ext_fin_eq _ _).2 hxy
        simp only [Item.isEmpty, Item.isPoint, e, Bool.true_and] at he hp
        simp [hp] at he

example : (VSet.item (exRange (some [1]) (some [1, 0]) true true)).toStr 0 = .ok "1".toList ∧
    (VSet.item (exRange (some [1]) (some [1]) false true)).toShortStr 0 = .ok "0".toList := by decide +kernel

end Verif
