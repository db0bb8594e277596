import Verif.Spec.Operators
import Verif.Props.Sets
/-!
# The upper ends of the ranges that operators stand for
-/
set_option linter.unusedSimpArgs false

namespace Verif
open scoped Verif

/-- `w` is final and has the numbers of `v` incremented at `i`. -/
structure Bumped (i : Nat) (v w : Version) : Prop where
  final : w.IsFinal
  valid : w.Valid
  numbers : Version.NumbersBumped i v w

/-- `w` is the final version of the release of `v`, and `v` is not stable. -/
structure Dropped (v w : Version) : Prop where
  final : w.IsFinal
  valid : w.Valid
  epoch : w.epoch = v.epoch
  release : w.release = v.release
  unstable : v.pre ≠ none ∨ v.dev ≠ none

theorem unstable_iff (v : Version) : v.isStable = false ↔ v.pre ≠ none ∨ v.dev ≠ none := by
  rw [← Bool.not_eq_true, stable_iff]
  by_cases h : v.pre = none <;> simp [h]

theorem nextAt_stable {v : Version} (hv : v.Valid) (hs : v.isStable = true) (i : Nat) :
    ∃ w, v.nextAt i = .ok w ∧ Bumped i v w := by
  obtain ⟨w, h1, h2, h3, h4, h5, -⟩ := nextAt_spec v hv i
  exact ⟨w, h1, h2, h4, h3, (h5 hs).2⟩

theorem nextAt_unstable {v : Version} (hv : v.Valid) (hs : v.isStable = false) (i : Nat) :
    ∃ w, v.nextAt i = .ok w ∧ Dropped v w := by
  obtain ⟨w, h1, h2, h3, h4, -, h5⟩ := nextAt_spec v hv i
  exact ⟨w, h1, h2, h4, h3, h5 hs, (unstable_iff v).1 hs⟩

theorem Bumped.lt {i : Nat} {v w : Version} (h : Bumped i v w) (hv : v.Valid) (hn : v.release.NonNeg) : v.key < w.key := by
  rw [key_lt_iff]
  exact Or.inr ⟨by rw [h.numbers.1],
    Or.inl (compareParts_lt_of_below _ _ hv.release h.valid.release hn (below_nextAt h.numbers.2))⟩

theorem Bumped.ne {i : Nat} {v w : Version} (h : Bumped i v w) (hv : v.Valid) : v.key ≠ w.key := by
  intro he
  have := (key_eq_iff _ _).1 he
  have h2 := (compareParts_eq_iff _ _ hv.release h.valid.release).1 this.2.1 i
  rw [h.numbers.2, if_neg (by omega), if_pos rfl] at h2
  omega

theorem Dropped.lt_iff {v w : Version} (h : Dropped v w) : v.key < w.key ↔ ¬ v.IsDevOfPost := by
  have := final_below (v := v) (w := w) (by rw [h.release]) h.epoch h.final h.unstable
  constructor
  · intro hlt hd; exact lt_asymm hlt (this.2 hd)
  · exact this.1

theorem Dropped.gt_iff {v w : Version} (h : Dropped v w) : w.key < v.key ↔ v.IsDevOfPost := by
  have := final_below (v := v) (w := w) (by rw [h.release]) h.epoch h.final h.unstable
  constructor
  · intro hlt; by_contra hd; exact lt_asymm hlt (this.1 hd)
  · exact this.2

theorem Dropped.ne {v w : Version} (h : Dropped v w) : v.key ≠ w.key := by
  intro he
  by_cases hd : v.IsDevOfPost
  · exact (h.gt_iff.2 hd).ne' he
  · exact (h.lt_iff.2 hd).ne he

theorem Bumped.nonNeg {i : Nat} {v w : Version} (h : Bumped i v w) (hn : v.release.NonNeg) : w.release.NonNeg := by
  intro x hx
  obtain ⟨k, hk, rfl⟩ := List.getElem_of_mem hx
  have e : w.release.part k = w.release.parts[k] := by simp [Release.part, hk]
  have hp : ∀ j, 0 ≤ v.release.part j := by
    intro j
    unfold Release.part
    by_cases hj : j < v.release.parts.length
    · simp [hj]; exact hn _ (List.getElem_mem hj)
    · simp [hj]
  rw [← e, h.numbers.2]
  have h1 := hp k
  have h2 := hp i
  split
  · exact h1
  · split <;> omega

theorem part_nonneg {r : Release} (hn : r.NonNeg) (j : Nat) : 0 ≤ r.part j := by
  unfold Release.part
  by_cases hj : j < r.parts.length
  · simp [hj]; exact hn _ (List.getElem_mem hj)
  · simp [hj]

/-- Below a final version of the same numbers. -/
theorem lt_final_iff {v w : Version} (hw : w.IsFinal) (he : v.epoch.value = w.epoch.value)
    (hc : v.release.compareParts = w.release.compareParts) : v.key < w.key ↔ v.LeadsToFinal := by
  obtain ⟨h1, h2, h3, h4⟩ := hw
  obtain ⟨ev, rv, pv, qv, dv, lv⟩ := v
  obtain ⟨ew, rw', pw, qw, dw, lw⟩ := w
  simp only [Version.LeadsToFinal] at *
  subst h1 h2 h3 h4
  rw [key_lt_same _ _ he hc]
  have bot : ∀ (α K : Type) [LinearOrder K] (f : α → K) (x : Ext α), ¬ extKey f x < extKey f .negInf := by
    intro α K _ f x; exact not_lt_bot
  cases pv with
  | some p => simp [Version.comparePre, extKey_fin_lt_posInf]
  | none => cases qv with
    | none => cases dv with
      | none =>
        simp only [Version.comparePre, Version.comparePost, Version.compareDev, Version.compareLocal]
        simp [bot]
      | some d => simp [Version.comparePre, extKey_negInf_lt_posInf]
    | some q =>
      simp only [Version.comparePre, Version.comparePost, Version.compareDev, Version.compareLocal]
      simp [bot, (extKey_negInf_lt_fin Tag.key q).ne']

theorem epoch_ext {a b : Epoch} (h : a.value = b.value) : a = b := by cases a; cases b; simp at h; rw [h]

/-- From `a` up to the bump of `a` at `i`: the versions from `a` on that share its first `i + 1` parts, and those
that lead to the bumped final version. -/
theorem Bumped.window {i : Nat} {a w v : Version} (h : Bumped i a w) (ha : a.Valid) (hna : a.release.NonNeg) (hv : v.Valid)
    (hnv : v.release.NonNeg) (hav : a.key ≤ v.key) :
    v.key < w.key ↔ v.SamePrefix (i + 1) a ∨ (a.NumbersBumped i v ∧ v.LeadsToFinal) := by
  have hnw := h.nonNeg hna
  have hbelow : v.epoch = a.epoch → ¬ v.release.Below a.release := by
    intro he hb
    have := compareParts_lt_of_below _ _ hv.release ha.release hnv hb
    exact not_lt_of_ge hav ((key_lt_iff _ _).2 (Or.inr ⟨by rw [he], Or.inl this⟩))
  constructor
  · intro hlt
    have he : v.epoch = a.epoch := by
      apply epoch_ext
      have h1 : v.epoch.value ≤ a.epoch.value := by
        rw [key_lt_iff, h.numbers.1] at hlt
        rcases hlt with h | h
        · exact h.le
        · exact h.1.le
      have h2 : a.epoch.value ≤ v.epoch.value := by
        by_contra hc
        exact not_lt_of_ge hav ((key_lt_iff _ _).2 (Or.inl (not_le.1 hc)))
      omega
    have hew : v.epoch.value = w.epoch.value := by rw [he, h.numbers.1]
    by_cases hc : v.release.compareParts = w.release.compareParts
    · right
      refine ⟨⟨he, fun j => ?_⟩, (lt_final_iff h.final hew hc).1 hlt⟩
      rw [(compareParts_eq_iff _ _ hv.release h.valid.release).1 hc j]
      exact h.numbers.2 j
    · left
      refine ⟨he, ?_⟩
      have hb : v.release.Below w.release := by
        rw [← compareParts_lt_iff _ _ hv.release h.valid.release hnv hnw]
        rcases (key_lt_iff _ _).1 hlt with h1 | ⟨-, h1 | h1⟩
        · omega
        · exact h1
        · exact absurd h1.1 hc
      obtain ⟨k, hk1, hk2⟩ := hb
      have hwn := h.numbers.2
      rcases lt_trichotomy k i with hki | hki | hki
      · refine absurd ⟨k, fun j hj => ?_, ?_⟩ (hbelow he)
        · rw [hk1 j hj, hwn, if_pos (by omega)]
        · rw [hwn, if_pos hki] at hk2; exact hk2
      · subst hki
        rw [hwn, if_neg (by omega), if_pos rfl] at hk2
        have hpre : ∀ j < k, v.release.part j = a.release.part j := by
          intro j hj; rw [hk1 j hj, hwn, if_pos hj]
        have hge : ¬ v.release.part k < a.release.part k := fun hl => hbelow he ⟨k, hpre, hl⟩
        intro j hj
        rcases Nat.lt_succ_iff_lt_or_eq.1 hj with hj | rfl
        · exact hpre j hj
        · omega
      · rw [hwn, if_neg (by omega), if_neg (by omega)] at hk2
        have := part_nonneg hnv k
        omega
  · rintro (⟨he, hp⟩ | ⟨⟨he, hp⟩, hl⟩)
    · rw [key_lt_iff]
      refine Or.inr ⟨by rw [he, h.numbers.1], Or.inl ?_⟩
      refine compareParts_lt_of_below _ _ hv.release h.valid.release hnv ⟨i, fun j hj => ?_, ?_⟩
      · rw [hp j (by omega), h.numbers.2, if_pos hj]
      · rw [hp i (by omega), h.numbers.2, if_neg (by omega), if_pos rfl]; omega
    · refine (lt_final_iff h.final (by rw [he, h.numbers.1]) ?_).2 hl
      rw [compareParts_eq_iff _ _ hv.release h.valid.release]
      intro j; rw [hp j, h.numbers.2]

/-- From an unstable `a` up to its final version. -/
theorem Dropped.window {a w v : Version} (h : Dropped a w) (ha : a.Valid) (hv : v.Valid) (hav : a.key ≤ v.key) :
    v.key < w.key ↔ v.SameNumbers a ∧ v.LeadsToFinal := by
  constructor
  · intro hlt
    have he : v.epoch = a.epoch := by
      apply epoch_ext
      have h1 : v.epoch.value ≤ a.epoch.value := by
        rw [key_lt_iff, h.epoch] at hlt
        rcases hlt with h | h
        · exact h.le
        · exact h.1.le
      have h2 : a.epoch.value ≤ v.epoch.value := by
        by_contra hc
        exact not_lt_of_ge hav ((key_lt_iff _ _).2 (Or.inl (not_le.1 hc)))
      omega
    have hew : v.epoch.value = w.epoch.value := by rw [he, h.epoch]
    have hc : v.release.compareParts = w.release.compareParts := by
      rcases (key_lt_iff _ _).1 hlt with h1 | ⟨-, h1 | h1⟩
      · omega
      · rw [h.release] at h1
        exact absurd ((key_lt_iff _ _).2 (Or.inr ⟨by rw [he], Or.inl h1⟩)) (not_lt_of_ge hav)
      · exact h1.1
    refine ⟨⟨he, ?_⟩, (lt_final_iff h.final hew hc).1 hlt⟩
    rw [h.release] at hc
    exact (compareParts_eq_iff _ _ hv.release ha.release).1 hc
  · rintro ⟨⟨he, hp⟩, hl⟩
    refine (lt_final_iff h.final (by rw [he, h.epoch]) ?_).2 hl
    rw [h.release, compareParts_eq_iff _ _ hv.release ha.release]
    exact hp

/-! ### The upper end for each operator -/

theorem getAt_part (r : Release) (i : Nat) : r.getAt i = .ok (r.part i) := by
  rw [getAt_nat]
  split
  · rfl
  · rename_i h
    simp only [Release.precision] at h
    simp [Release.part, h]

theorem major_eq (v : Version) : v.major = .ok (v.release.part 0) := getAt_part v.release 0
theorem minor_eq (v : Version) : v.minor = .ok (v.release.part 1) := getAt_part v.release 1

theorem hasAt_iff (v : Version) (i : Nat) : v.hasAt i = true ↔ i < v.release.precision := by
  simp [Version.hasAt, Release.hasAt]

theorem caretIndex_unique {r : Release} {i k : Nat} (hi : CaretIndex r i) (hk : CaretIndex r k) : i = k := by
  have key : ∀ {i k : Nat}, CaretIndex r i → CaretIndex r k → ¬ i < k := by
    rintro i k ⟨hi1, hi2, hi3⟩ ⟨hk1, hk2, hk3⟩ hlt
    have h0 := hk2 i hlt
    rcases hi3 with h | h
    · exact h h0
    · rcases hk3 with h' | h'
      · have : k < r.precision := by
          by_contra hc
          simp only [Release.precision] at hc
          apply h'; simp [Release.part, hc]
        omega
      · omega
  rcases lt_trichotomy i k with h | h | h
  · exact absurd h (key hi hk)
  · exact h
  · exact absurd h (key hk hi)

/-- The upper end of `^`: for some bump index for stable versions, and the special cases for unstable ones. -/
theorem caret_spec {v : Version} (hv : v.Valid) :
    ∃ w, v.nextCaretBreaking = .ok w ∧
      (v.isStable = true → ∃ i, CaretIndex v.release i ∧ Bumped i v w) ∧
      (v.isStable = false → v.release.part 0 ≠ 0 → Bumped 0 v w) ∧
      (v.isStable = false → v.release.part 0 = 0 → Dropped v w) := by
  have hpos : 0 < v.release.precision := (precision_pos_iff _).2 hv.release
  unfold Version.nextCaretBreaking Version.nextBreaking
  rw [major_eq, minor_eq]
  simp only [bind, Except.bind]
  obtain ⟨n0, n1, n2, -⟩ := C10_named v
  have part_zero : ∀ k, ¬ k < v.release.precision → v.release.part k = 0 := by
    intro k hk; simp only [Release.precision] at hk; simp [Release.part, hk]
  by_cases h0 : v.release.part 0 = 0
  · rw [if_pos h0]
    have below1 : ∀ j < 1, v.release.part j = 0 := by
      intro j hj
      obtain rfl : j = 0 := by omega
      exact h0
    have below2 : v.release.part 1 = 0 → ∀ j < 2, v.release.part j = 0 := by
      intro h1 j hj
      obtain rfl | rfl : j = 0 ∨ j = 1 := by omega
      · exact h0
      · exact h1
    have aux : ∀ i : Nat, (CaretIndex v.release i) → ∃ w, v.nextAt i = .ok w ∧
        (v.isStable = true → ∃ i, CaretIndex v.release i ∧ Bumped i v w) ∧
        (v.isStable = false → v.release.part 0 ≠ 0 → Bumped 0 v w) ∧
        (v.isStable = false → v.release.part 0 = 0 → Dropped v w) := by
      intro i hi
      cases hs : v.isStable with
      | true =>
        obtain ⟨w, h1, h2⟩ := nextAt_stable hv hs i
        exact ⟨w, h1, fun _ => ⟨i, hi, h2⟩, by simp, by simp⟩
      | false =>
        obtain ⟨w, h1, h2⟩ := nextAt_unstable hv hs i
        exact ⟨w, h1, by simp, fun _ h => absurd h0 h, fun _ _ => h2⟩
    by_cases h1 : v.release.part 1 = 0
    · rw [if_neg (by simpa using h1)]
      have e2 : v.hasAt 2 = true ↔ 2 < v.release.precision := hasAt_iff v 2
      have e1 : v.hasAt 1 = true ↔ 1 < v.release.precision := hasAt_iff v 1
      by_cases p2 : 2 < v.release.precision
      · rw [if_pos (e2.2 p2), n2]
        exact aux 2 ⟨by omega, below2 h1, Or.inr (by omega)⟩
      · rw [if_neg (fun h => p2 (e2.1 h))]
        by_cases p1 : 1 < v.release.precision
        · rw [if_pos (e1.2 p1), n1]
          exact aux 1 ⟨by omega, below1, Or.inr (by omega)⟩
        · rw [if_neg (fun h => p1 (e1.1 h)), n0]
          exact aux 0 ⟨by omega, by intro j hj; omega, Or.inr (by omega)⟩
    · rw [if_pos h1, n1]
      exact aux 1 ⟨by omega, below1, Or.inl h1⟩
  · rw [if_neg h0, (C10_named v.toStable).1]
    have hst := C12_to_stable v
    have hsv : v.toStable.Valid := by
      unfold Version.toStable
      split
      · exact hv
      · exact ⟨hv.release, by rintro t ⟨⟩, by rintro t ⟨⟩, by rintro t ⟨⟩, by rintro t ⟨⟩⟩
    have hb : v.toStable.epoch = v.epoch ∧ v.toStable.release = v.release := by
      unfold Version.toStable
      split
      · exact ⟨rfl, rfl⟩
      · exact ⟨rfl, rfl⟩
    obtain ⟨w, h1, h2⟩ := nextAt_stable hsv hst.2.2.1 0
    have h3 : Bumped 0 v w := ⟨h2.final, h2.valid, by
      have := h2.numbers
      unfold Version.NumbersBumped at *
      rw [hb.1, hb.2] at this; exact this⟩
    exact ⟨w, h1, fun _ => ⟨0, ⟨by omega, by intro j hj; omega, Or.inl h0⟩, h3⟩, fun _ _ => h3, fun _ h => absurd h h0⟩

theorem toStable_numbers (v : Version) : v.toStable.epoch = v.epoch ∧ v.toStable.release = v.release := by
  unfold Version.toStable
  split
  · exact ⟨rfl, rfl⟩
  · exact ⟨rfl, rfl⟩

theorem toStable_valid {v : Version} (hv : v.Valid) : v.toStable.Valid := by
  unfold Version.toStable
  split
  · exact hv
  · exact ⟨hv.release, by rintro t ⟨⟩, by rintro t ⟨⟩, by rintro t ⟨⟩, by rintro t ⟨⟩⟩

theorem tildeEqual_spec {v : Version} (hv : v.Valid) :
    (v.release.precision = 1 → v.nextTildeEqualBreaking = .error .valueError) ∧
    (2 ≤ v.release.precision → ∃ w, v.nextTildeEqualBreaking = .ok w ∧ Bumped (v.release.precision - 2) v w) := by
  unfold Version.nextTildeEqualBreaking Version.lastIndex Release.lastIndex
  constructor
  · intro h; simp [h]
  · intro h
    rw [if_pos (by omega)]
    have : (v.release.precision : Int) - 1 - 1 = ((v.release.precision - 2 : Nat) : Int) := by omega
    rw [this]
    obtain ⟨w, h1, h2⟩ := nextAt_stable (toStable_valid hv) (C12_to_stable v).2.2.1 (v.release.precision - 2)
    refine ⟨w, h1, h2.final, h2.valid, ?_⟩
    have h3 := h2.numbers
    unfold Version.NumbersBumped at *
    rw [(toStable_numbers v).1, (toStable_numbers v).2] at h3; exact h3

theorem tilde_spec {v : Version} (hv : v.Valid) :
    ∃ w, v.nextTildeBreaking = .ok w ∧
      (v.isStable = true → Bumped (if 2 ≤ v.release.precision then 1 else 0) v w) ∧
      (v.isStable = false → Dropped v w) := by
  unfold Version.nextTildeBreaking
  have e1 : v.hasAt 1 = true ↔ 1 < v.release.precision := hasAt_iff v 1
  by_cases p1 : 1 < v.release.precision
  · rw [if_pos (e1.2 p1), (C10_named v).2.1, if_pos (by omega)]
    cases hs : v.isStable with
    | true => obtain ⟨w, h1, h2⟩ := nextAt_stable hv hs 1; exact ⟨w, h1, fun _ => h2, by simp⟩
    | false => obtain ⟨w, h1, h2⟩ := nextAt_unstable hv hs 1; exact ⟨w, h1, by simp, fun _ => h2⟩
  · rw [if_neg (fun h => p1 (e1.1 h)), (C10_named v).1, if_neg (by omega)]
    cases hs : v.isStable with
    | true => obtain ⟨w, h1, h2⟩ := nextAt_stable hv hs 0; exact ⟨w, h1, fun _ => h2, by simp⟩
    | false => obtain ⟨w, h1, h2⟩ := nextAt_unstable hv hs 0; exact ⟨w, h1, by simp, fun _ => h2⟩

theorem wildcard_spec {v : Version} (hv : v.Valid) :
    (v.pre = none → v.post = none → v.dev = none → v.release.precision = 1 → v.nextWildcardBreaking = .ok none) ∧
    (v.pre = none → v.post = none → v.dev = none → 2 ≤ v.release.precision →
      ∃ w, v.nextWildcardBreaking = .ok (some w) ∧ Bumped (v.release.precision - 2) v w) ∧
    (v.pre = none → v.post ≠ none → v.dev = none →
      ∃ w, v.nextWildcardBreaking = .ok (some w) ∧ Bumped (v.release.precision - 1) v w) ∧
    (v.isStable = false → ∃ w, v.nextWildcardBreaking = .ok (some w) ∧ Dropped v w) := by
  have hpos : 0 < v.release.precision := (precision_pos_iff _).2 hv.release
  unfold Version.nextWildcardBreaking Version.lastIndex Release.lastIndex
  simp only [bind, Except.bind]
  refine ⟨fun h1 h2 h3 hp => ?_, fun h1 h2 h3 hp => ?_, fun h1 h2 h3 => ?_, fun hs => ?_⟩
  · simp [(stable_iff v).2 ⟨h1, h3⟩, Version.isPostRelease, h2, hp]
  · obtain ⟨w, e1, e2⟩ := nextAt_stable hv ((stable_iff v).2 ⟨h1, h3⟩) (v.release.precision - 2)
    refine ⟨w, ?_, e2⟩
    have e3 : (v.release.precision : Int) - 1 - 1 = ((v.release.precision - 2 : Nat) : Int) := by omega
    rw [if_pos (by simp [(stable_iff v).2 ⟨h1, h3⟩, Version.isPostRelease, h2]), if_neg (by omega), e3, e1]
  · obtain ⟨w, e1, e2⟩ := nextAt_stable hv ((stable_iff v).2 ⟨h1, h3⟩) (v.release.precision - 1)
    refine ⟨w, ?_, e2⟩
    have e3 : (v.release.precision : Int) - 1 = ((v.release.precision - 1 : Nat) : Int) := by omega
    rw [if_neg (by cases hq : v.post <;> simp_all [Version.isPostRelease]), e3, e1]
  · obtain ⟨w, e1, e2⟩ := nextAt_unstable hv hs (v.release.precision - 1)
    refine ⟨w, ?_, e2⟩
    have e3 : (v.release.precision : Int) - 1 = ((v.release.precision - 1 : Nat) : Int) := by omega
    rw [if_neg (by simp [hs]), e3, e1]

/-- The possible upper ends of the range of an operator on `v`: never equal to `v`; below `v` only if `v` is a
development release of a post-release. -/
def UpperEnd (v w : Version) : Prop := (∃ i, Bumped i v w) ∨ Dropped v w

theorem UpperEnd.ne {v w : Version} (h : UpperEnd v w) (hv : v.Valid) : v.key ≠ w.key := by
  rcases h with ⟨i, h⟩ | h
  · exact h.ne hv
  · exact h.ne

/-- The wildcard operators, without the case distinction. -/
theorem wildcard_upper {v : Version} (hv : v.Valid) :
    v.nextWildcardBreaking = .ok none ∨ ∃ w, v.nextWildcardBreaking = .ok (some w) ∧ UpperEnd v w := by
  have hpos : 0 < v.release.precision := (precision_pos_iff _).2 hv.release
  obtain ⟨h1, h2, h3, h4⟩ := wildcard_spec hv
  cases hs : v.isStable with
  | false => obtain ⟨w, e, hd⟩ := h4 hs; exact .inr ⟨w, e, .inr hd⟩
  | true =>
    obtain ⟨hp, hd⟩ := (stable_iff v).1 hs
    by_cases hq : v.post = none
    · by_cases hn : v.release.precision = 1
      · exact .inl (h1 hp hq hd hn)
      · obtain ⟨w, e, hb⟩ := h2 hp hq hd (by omega); exact .inr ⟨w, e, .inl ⟨_, hb⟩⟩
    · obtain ⟨w, e, hb⟩ := h3 hp hq hd; exact .inr ⟨w, e, .inl ⟨_, hb⟩⟩

/-! ### Ranges and complements -/

/-- The range `[v, w)`. -/
def window (v w : Version) : VSet := .item (.range ⟨some v, some w, true, false⟩)

theorem mkRange_window (v w : Version) : Item.mkRange (some v) (some w) true false =
    if w.key < v.key then .error .valueError else .ok (.range ⟨some v, some w, true, false⟩) := by
  unfold Item.mkRange
  simp only [Option.isNone_some, Bool.false_and, Bool.and_false, if_false, egt_iff, Bool.false_eq_true]
  simp only [Item.comparableMin, Item.comparableMax, Item.min, Item.max, Item.fields, ext_fin_lt]

theorem window_contains (v w u : Version) : (window v w).contains u = (PyCmp.le v u && PyCmp.lt u w) := by
  rw [Bool.eq_iff_iff, vset_contains_iff_mem, Bool.and_eq_true, vle_iff, vlt_iff]
  simp [window, VSet.Mem, Item.Mem, AboveMin, BelowMax, vlt_iff, veq_iff, le_iff_lt_or_eq]

theorem window_normal {v w : Version} (h : v.key < w.key) : (window v w).Normal := by
  refine ⟨by simp, by simp, ?_⟩
  rintro a b ⟨⟩ ⟨⟩
  exact (vlt_iff _ _).2 h

/-- The complement of a set that has versions outside on both sides is a union. -/
theorem complement_union {a : VSet} (ha : a.Normal) {x y z : Cut} (hxy : x < y) (hyz : y < z) (hx : ¬ a.Cov x) (hy : a.Cov y)
    (hz : ¬ a.Cov z) (ht : z ≠ ⊤) :
    ∃ items, (∀ lim, a.complement lim = .ok (.union items)) ∧ (VSet.union items).Normal ∧
      ∀ c, (VSet.union items).Cov c ↔ c ≠ ⊤ ∧ ¬ a.Cov c := by
  obtain ⟨s, s1, s2, s3⟩ := complement_spec ha
  have cx : s.Cov x := (s3 x).2 ⟨(hxy.trans (hyz.trans_le le_top)).ne, hx⟩
  have cz : s.Cov z := (s3 z).2 ⟨ht, hz⟩
  have cy : ¬ s.Cov y := fun h => ((s3 y).1 h).2 hy
  cases s with
  | empty => exact absurd cx (cov_nil _).1
  | item i =>
    rw [VSet.Cov, VSet.extract, cov_cons, cov_nil, or_false] at cx cy cz
    exact absurd ⟨cx.1.trans hxy.le, hyz.trans cz.2⟩ cy
  | union items => exact ⟨items, s1, s2, s3⟩

theorem not_universal (lim : Nat) : VSet.universal.complement lim = .ok .empty := by
  obtain ⟨s, s1, s2, s3⟩ := complement_spec (a := .universal) universal_normal
  rw [s1, s2.eq_empty_iff.2]
  intro c hc
  exact ((s3 c).1 hc).2 ((universal_cov c).2 ((s3 c).1 hc).1)

theorem window_cov (v w : Version) (c : Cut) : (window v w).Cov c ↔ cut v ≤ c ∧ c < cut w := by
  rw [window, VSet.Cov, VSet.extract, cov_cons, cov_nil, or_false]; rfl

theorem complement_window {v w : Version} (h : v.key < w.key) :
    ∃ items, (∀ lim, (window v w).complement lim = .ok (.union items)) ∧ (VSet.union items).Normal ∧
      ∀ c, (VSet.union items).Cov c ↔ c ≠ ⊤ ∧ ¬ (window v w).Cov c := by
  have hlt : cut v < cut w := (cutAt_lt _ _ _ _).2 (.inl h)
  refine complement_union (window_normal h) (bot_lt_cutAt v false) hlt ?_ ?_ ?_ (cutAt_lt_top w false).ne
  · rw [window_cov]; exact fun hc => not_lt_of_ge hc.1 (bot_lt_cutAt v false)
  · rw [window_cov]; exact ⟨le_rfl, hlt⟩
  · rw [window_cov]; exact fun hc => lt_irrefl _ hc.2

theorem complement_point (v : Version) :
    ∃ items, (∀ lim, (VSet.item (.point v)).complement lim = .ok (.union items)) ∧ (VSet.union items).Normal ∧
      ∀ c, (VSet.union items).Cov c ↔ c ≠ ⊤ ∧ ¬ (VSet.item (.point v)).Cov c := by
  have hlt : cut v < cutAt v true := (cutAt_lt _ _ _ _).2 (.inr ⟨rfl, rfl, rfl⟩)
  refine complement_union (a := .item (.point v)) (point_normal v) (bot_lt_cutAt v false) hlt ?_ ?_ ?_ (cutAt_lt_top v true).ne
  · rw [point_cov]; exact (bot_lt_cutAt v false).ne
  · rw [point_cov]; rfl
  · rw [point_cov]; exact hlt.ne'

theorem complement_contains {a b : VSet} (h : ∀ c, b.Cov c ↔ c ≠ ⊤ ∧ ¬ a.Cov c) (v : Version) :
    b.contains v = !a.contains v := by
  rw [Bool.eq_iff_iff, contains_cov, h, Bool.not_eq_true', ← Bool.not_eq_true, contains_cov]
  exact ⟨fun h => h.2, fun h => ⟨(cutAt_lt_top _ _).ne, h⟩⟩

end Verif
