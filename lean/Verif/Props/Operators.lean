import Verif.Proofs.Operators
/-!
# Properties of operators: C13, C15-C19
-/
set_option linter.unusedSimpArgs false

namespace Verif
open scoped Verif

/-- A chained comparison with an upper end. -/
theorem chained_ok {next : Version → Except PyErr Version} {a w : Version} (h : next a = .ok w) (v : Version) :
    Version.chained next v a = .ok (PyCmp.le a v && PyCmp.lt v w) := by
  unfold Version.chained
  cases hl : (PyCmp.le a v) <;> simp [h, bind, Except.bind]

theorem window_iff {a v w : Version} {P : Prop} (h : a.key ≤ v.key → (v.key < w.key ↔ P)) :
    (PyCmp.le a v && PyCmp.lt v w) = true ↔ a ≤ₚ v ∧ P := by
  rw [Bool.and_eq_true, vle_iff, vlt_iff]
  exact and_congr_right h

theorem not_numbersBumped {i : Nat} {a v : Version} (h : ¬ v.LeadsToFinal) {P : Prop} :
    P ∨ (a.NumbersBumped i v ∧ v.LeadsToFinal) ↔ P := by simp [h]

/-! ## C13: caret -/

/-- C13. The index of the caret rule exists and is unique. -/
theorem C13_index (r : Release) (h : r.Valid) : ∃! i, CaretIndex r i := by
  obtain ⟨w, -, h1, -⟩ := caret_spec (v := { release := r }) ⟨h, by rintro t ⟨⟩, by rintro t ⟨⟩, by rintro t ⟨⟩, by rintro t ⟨⟩⟩
  obtain ⟨i, hi, -⟩ := h1 rfl
  exact ⟨i, hi, fun k hk => caretIndex_unique hk hi⟩

example : CaretIndex ⟨[0, 3, 1]⟩ 1 ∧ CaretIndex ⟨[0, 0]⟩ 1 ∧ CaretIndex ⟨[5]⟩ 0 ∧ ¬ CaretIndex ⟨[0, 3, 1]⟩ 0 := by decide +kernel

/-- C13. Every version that `^ against` accepts, for a stable `against`: those from `against` on that agree with it up to
the caret index, and those leading to the next breaking release. -/
theorem C13_caret (a v : Version) (ha : a.Valid) (hna : a.release.NonNeg) (hs : a.pre = none ∧ a.dev = none) (hv : v.Valid)
    (hnv : v.release.NonNeg) (i : Nat) (hi : CaretIndex a.release i) :
    ∃ b, v.matchesCaret a = .ok b ∧
      (b = true ↔ a ≤ₚ v ∧ (v.SamePrefix (i + 1) a ∨ (a.NumbersBumped i v ∧ v.LeadsToFinal))) := by
  obtain ⟨w, h1, h2, -⟩ := caret_spec ha
  obtain ⟨k, hk, hb⟩ := h2 ((stable_iff a).2 hs)
  obtain rfl := caretIndex_unique hi hk
  exact ⟨_, chained_ok h1 v, window_iff (hb.window ha hna hv hnv)⟩

example : (exVersion [0, 2, 3] none (some postTag)).Valid ∧ CaretIndex (exVersion [0, 2, 3] none (some postTag)).release 1 ∧
    (exVersion [0, 2, 3] none (some postTag)).NumbersBumped 1 (exVersion [0, 3] (some rcTag)) ∧ (exVersion [0, 3] (some rcTag)).LeadsToFinal ∧
    (exVersion [0, 3] (some rcTag)).matchesCaret (exVersion [0, 2, 3] none (some postTag)) = .ok true := by decide +kernel

/-- C13. For versions that are not leading to a final one (final, post and local versions): `^` accepts those from `against` on
with the same parts up to the caret index. -/
theorem C13_caret_final (a v : Version) (ha : a.Valid) (hna : a.release.NonNeg) (hs : a.pre = none ∧ a.dev = none)
    (hv : v.Valid) (hnv : v.release.NonNeg) (hf : ¬ v.LeadsToFinal) (i : Nat) (hi : CaretIndex a.release i) :
    ∃ b, v.matchesCaret a = .ok b ∧ (b = true ↔ a ≤ₚ v ∧ v.SamePrefix (i + 1) a) := by
  obtain ⟨b, h1, h2⟩ := C13_caret a v ha hna hs hv hnv i hi
  exact ⟨b, h1, by rw [h2, not_numbersBumped hf]⟩

example : CaretIndex (exVersion [0, 0, 3]).release 2 ∧ ¬ (exVersion [0, 0, 3, 9] none (some postTag)).LeadsToFinal ∧
    (exVersion [0, 0, 3, 9] none (some postTag)).SamePrefix 3 (exVersion [0, 0, 3]) ∧
    (exVersion [0, 0, 3, 9] none (some postTag)).matchesCaret (exVersion [0, 0, 3]) = .ok true ∧
    (exVersion [0, 0, 4]).matchesCaret (exVersion [0, 0, 3]) = .ok false := by decide +kernel

/-- C13. For an unstable `against` with non-zero major part: the same, with index 0. -/
theorem C13_caret_unstable (a v : Version) (ha : a.Valid) (hna : a.release.NonNeg) (hu : a.pre ≠ none ∨ a.dev ≠ none)
    (hm : a.release.part 0 ≠ 0) (hv : v.Valid) (hnv : v.release.NonNeg) :
    ∃ b, v.matchesCaret a = .ok b ∧
      (b = true ↔ a ≤ₚ v ∧ (v.SamePrefix 1 a ∨ (a.NumbersBumped 0 v ∧ v.LeadsToFinal))) := by
  obtain ⟨w, h1, -, h2, -⟩ := caret_spec ha
  have hb := h2 ((unstable_iff a).2 hu) hm
  exact ⟨_, chained_ok h1 v, window_iff (hb.window ha hna hv hnv)⟩

example : (exVersion [1, 2] (some rcTag)).Valid ∧ (exVersion [1, 9]).SamePrefix 1 (exVersion [1, 2] (some rcTag)) ∧
    (exVersion [1, 9]).matchesCaret (exVersion [1, 2] (some rcTag)) = .ok true ∧
    (exVersion [2]).matchesCaret (exVersion [1, 2] (some rcTag)) = .ok false := by decide +kernel

/-- C13, a surprise. For an unstable `against` with zero major part, `^` accepts only versions of the very same release that
still lead to the final one: `^0.1rc1` does not accept `0.1`. -/
theorem C13_caret_unstable_zero (a v : Version) (ha : a.Valid) (hu : a.pre ≠ none ∨ a.dev ≠ none)
    (hm : a.release.part 0 = 0) (hv : v.Valid) :
    ∃ b, v.matchesCaret a = .ok b ∧ (b = true ↔ a ≤ₚ v ∧ v.SameNumbers a ∧ v.LeadsToFinal) := by
  obtain ⟨w, h1, -, -, h2⟩ := caret_spec ha
  have hb := h2 ((unstable_iff a).2 hu) hm
  exact ⟨_, chained_ok h1 v, window_iff (hb.window ha hv)⟩

example : (exVersion [0, 2] (some rcTag) (some postTag)).matchesCaret (exVersion [0, 2] (some rcTag)) = .ok true ∧
    (exVersion [0, 2]).matchesCaret (exVersion [0, 2] (some rcTag)) = .ok false := by decide +kernel

example : (exVersion [0, 2, 9]).matchesCaret (exVersion [0, 2, 3]) = .ok true := by decide +kernel
example : (exVersion [0, 3]).matchesCaret (exVersion [0, 2, 3]) = .ok false := by decide +kernel
example : (exVersion [2, 0] (some rcTag)).matchesCaret (exVersion [1, 2]) = .ok true := by decide +kernel
example : (exVersion [0, 1]).matchesCaret (exVersion [0, 1] (some rcTag)) = .ok false := by decide +kernel
example : CaretIndex ⟨[0, 0, 0, 7]⟩ 2 := by
  refine ⟨by omega, ?_, .inr (by decide)⟩
  intro j hj
  obtain rfl | rfl : j = 0 ∨ j = 1 := by omega
  · rfl
  · rfl

/-! ## C17: `~=` -/

/-- C17. Every version that `~= against` accepts, for any `against` with `n ≥ 2` parts. -/
theorem C17_tilde_equal (a v : Version) (ha : a.Valid) (hna : a.release.NonNeg) (hp : 2 ≤ a.release.precision) (hv : v.Valid)
    (hnv : v.release.NonNeg) :
    ∃ b, v.matchesTildeEqual a = .ok b ∧ (b = true ↔ a ≤ₚ v ∧ (v.SamePrefix (a.release.precision - 1) a ∨
      (a.NumbersBumped (a.release.precision - 2) v ∧ v.LeadsToFinal))) := by
  obtain ⟨w, h1, hb⟩ := (tildeEqual_spec ha).2 hp
  refine ⟨_, chained_ok h1 v, window_iff fun h => ?_⟩
  rw [hb.window ha hna hv hnv h, show a.release.precision - 2 + 1 = a.release.precision - 1 by omega]

example : (exVersion [1, 2, 3]).Valid ∧ (exVersion [1, 2, 3]).NumbersBumped 1 (exVersion [1, 3] none none (some devTag)) ∧
    (exVersion [1, 3] none none (some devTag)).matchesTildeEqual (exVersion [1, 2, 3]) = .ok true := by decide +kernel

/-- C17. For final, post and local versions: those from `against` on with the same epoch and first `n - 1` parts. -/
theorem C17_tilde_equal_final (a v : Version) (ha : a.Valid) (hna : a.release.NonNeg) (hp : 2 ≤ a.release.precision)
    (hv : v.Valid) (hnv : v.release.NonNeg) (hf : ¬ v.LeadsToFinal) :
    ∃ b, v.matchesTildeEqual a = .ok b ∧ (b = true ↔ a ≤ₚ v ∧ v.SamePrefix (a.release.precision - 1) a) := by
  obtain ⟨b, h1, h2⟩ := C17_tilde_equal a v ha hna hp hv hnv
  exact ⟨b, h1, by rw [h2, not_numbersBumped hf]⟩

example : (exVersion [1, 2, 9] none (some postTag)).SamePrefix 2 (exVersion [1, 2, 3]) ∧ ¬ (exVersion [1, 2, 9] none (some postTag)).LeadsToFinal ∧
    (exVersion [1, 2, 9] none (some postTag)).matchesTildeEqual (exVersion [1, 2, 3]) = .ok true := by decide +kernel

/-- C17. With a single part, and only then, constructing the operator raises `ValueError`; no other operator does. -/
theorem C17_constructor (t : OpType) (a : Version) (ha : a.Valid) :
    (t = .tildeEqual ∧ a.release.precision = 1 → Operator.create t a = .error .valueError) ∧
    (¬ (t = .tildeEqual ∧ a.release.precision = 1) → Operator.create t a = .ok ⟨t, a⟩) := by
  have hpos : 0 < a.release.precision := (precision_pos_iff _).2 ha.release
  unfold Operator.create Version.lastIndex Release.lastIndex
  constructor
  · rintro ⟨rfl, h⟩; rw [if_pos ⟨rfl, by omega⟩]
  · intro h; rw [if_neg]; rintro ⟨h1, h2⟩; exact h ⟨h1, by omega⟩

example : Operator.create .tildeEqual (exVersion [1]) = .error .valueError ∧
    Operator.create .tildeEqual (exVersion [1, 0]) = .ok ⟨.tildeEqual, exVersion [1, 0]⟩ ∧
    Operator.create .caret (exVersion [1]) = .ok ⟨.caret, exVersion [1]⟩ := by decide +kernel

example : (exVersion [1, 2, 9]).matchesTildeEqual (exVersion [1, 2, 3]) = .ok true := by decide +kernel
example : (exVersion [1, 3]).matchesTildeEqual (exVersion [1, 2, 3]) = .ok false := by decide +kernel
example : (exVersion [1, 9]).matchesTildeEqual (exVersion [1, 2]) = .ok true := by decide +kernel
example : (exVersion [2] (some rcTag)).matchesTildeEqual (exVersion [1, 2] (some rcTag)) = .ok true := by decide +kernel

/-! ## C18: `~` and the wildcards -/

/-- C18. Every version that `~ against` accepts, for a stable `against`: prefix of major and, if given, minor. -/
theorem C18_tilde (a v : Version) (ha : a.Valid) (hna : a.release.NonNeg) (hs : a.pre = none ∧ a.dev = none) (hv : v.Valid)
    (hnv : v.release.NonNeg) :
    ∃ b, v.matchesTilde a = .ok b ∧ (b = true ↔ a ≤ₚ v ∧ (v.SamePrefix (min 2 a.release.precision) a ∨
      (a.NumbersBumped (min 2 a.release.precision - 1) v ∧ v.LeadsToFinal))) := by
  have hpos : 0 < a.release.precision := (precision_pos_iff _).2 ha.release
  obtain ⟨w, h1, h2, -⟩ := tilde_spec ha
  have hb := h2 ((stable_iff a).2 hs)
  have e : (if 2 ≤ a.release.precision then 1 else 0) = min 2 a.release.precision - 1 := by split <;> omega
  rw [e] at hb
  refine ⟨_, chained_ok h1 v, window_iff fun h => ?_⟩
  rw [hb.window ha hna hv hnv h, show min 2 a.release.precision - 1 + 1 = min 2 a.release.precision by omega]

example : (exVersion [1, 3, 0] (some rcTag)).matchesTilde (exVersion [1, 2, 3]) = .ok true ∧
    (exVersion [1, 2, 3]).NumbersBumped 1 (exVersion [1, 3, 0] (some rcTag)) ∧
    (exVersion [1, 3, 0]).matchesTilde (exVersion [1, 2, 3]) = .ok false := by decide +kernel

/-- C18. `~ against` on final, post and local versions. -/
theorem C18_tilde_final (a v : Version) (ha : a.Valid) (hna : a.release.NonNeg) (hs : a.pre = none ∧ a.dev = none)
    (hv : v.Valid) (hnv : v.release.NonNeg) (hf : ¬ v.LeadsToFinal) :
    ∃ b, v.matchesTilde a = .ok b ∧ (b = true ↔ a ≤ₚ v ∧ v.SamePrefix (min 2 a.release.precision) a) := by
  obtain ⟨b, h1, h2⟩ := C18_tilde a v ha hna hs hv hnv
  exact ⟨b, h1, by rw [h2, not_numbersBumped hf]⟩

example : (exVersion [1, 9]).matchesTilde (exVersion [1]) = .ok true ∧ (exVersion [1, 9]).SamePrefix 1 (exVersion [1]) ∧
    (exVersion [2]).matchesTilde (exVersion [1]) = .ok false := by decide +kernel

/-- C18, a surprise. For an unstable `against`, `~` accepts only versions of the very same release that lead to the final
one: `~1.0rc1` does not accept `1.0`. -/
theorem C18_tilde_unstable (a v : Version) (ha : a.Valid) (hu : a.pre ≠ none ∨ a.dev ≠ none) (hv : v.Valid) :
    ∃ b, v.matchesTilde a = .ok b ∧ (b = true ↔ a ≤ₚ v ∧ v.SameNumbers a ∧ v.LeadsToFinal) := by
  obtain ⟨w, h1, -, h2⟩ := tilde_spec ha
  exact ⟨_, chained_ok h1 v, window_iff ((h2 ((unstable_iff a).2 hu)).window ha hv)⟩

example : (exVersion [1, 2] none none (some devTag)).Valid ∧
    (exVersion [1, 2] (some rcTag)).matchesTilde (exVersion [1, 2] none none (some devTag)) = .ok true ∧
    (exVersion [1, 2]).matchesTilde (exVersion [1, 2] none none (some devTag)) = .ok false := by decide +kernel

theorem wildcardEqual_ok {a w : Version} (h : a.nextWildcardBreaking = .ok (some w)) (v : Version) :
    v.matchesWildcardEqual a = .ok (PyCmp.le a v && PyCmp.lt v w) := by
  simp [Version.matchesWildcardEqual, h, bind, Except.bind]

/-- C18. `*`, which is a version of one part without tags: accepts everything. -/
theorem C18_star (a v : Version) (ha : a.Valid) (hp : a.release.precision = 1)
    (hf : a.pre = none ∧ a.post = none ∧ a.dev = none) : v.matchesWildcardEqual a = .ok true := by
  simp [Version.matchesWildcardEqual, (wildcard_spec ha).1 hf.1 hf.2.1 hf.2.2 hp, bind, Except.bind]

example : (exVersion [0, 1] (some rcTag)).matchesWildcardEqual (exVersion [5]) = .ok true :=
  C18_star _ _ (by decide +kernel) rfl (by decide +kernel)

/-- C18. `== a.*` without tags and with `n ≥ 2` parts, in general. -/
theorem C18_wildcard_general (a v : Version) (ha : a.Valid) (hna : a.release.NonNeg) (hp : 2 ≤ a.release.precision)
    (hf : a.pre = none ∧ a.post = none ∧ a.dev = none) (hv : v.Valid) (hnv : v.release.NonNeg) :
    ∃ b, v.matchesWildcardEqual a = .ok b ∧ (b = true ↔ a ≤ₚ v ∧ (v.SamePrefix (a.release.precision - 1) a ∨
      (a.NumbersBumped (a.release.precision - 2) v ∧ v.LeadsToFinal))) := by
  obtain ⟨w, h1, hb⟩ := (wildcard_spec ha).2.1 hf.1 hf.2.1 hf.2.2 hp
  refine ⟨_, wildcardEqual_ok h1 v, window_iff fun h => ?_⟩
  rw [hb.window ha hna hv hnv h, show a.release.precision - 2 + 1 = a.release.precision - 1 by omega]

example : (exVersion [1, 2, 5]).matchesWildcardEqual (exVersion [1, 2, 3]) = .ok true ∧
    (exVersion [1, 2, 1]).matchesWildcardEqual (exVersion [1, 2, 3]) = .ok false ∧
    (exVersion [1, 3] (some rcTag)).matchesWildcardEqual (exVersion [1, 2, 3]) = .ok true := by decide +kernel

/-- A final version whose last part is 0 is below everything with the same other parts, unless that leads to a final
version. -/
theorem wildcard_min {a v : Version} (ha : a.Valid) (hp : 0 < a.release.precision) (hf : a.IsFinal)
    (h0 : a.release.part (a.release.precision - 1) = 0) (hna : a.release.NonNeg) (hv : v.Valid) (hnv : v.release.NonNeg)
    (hl : ¬ v.LeadsToFinal) (hs : v.SamePrefix (a.release.precision - 1) a) : a ≤ₚ v := by
  rw [vle_iff, ← not_lt]
  intro hlt
  have hb : ¬ v.release.Below a.release := by
    rintro ⟨k, -, hk⟩
    have := part_nonneg hnv k
    by_cases h1 : k < a.release.precision - 1
    · rw [hs.2 k h1] at hk; omega
    · have : a.release.part k = 0 := by
        by_cases h2 : k = a.release.precision - 1
        · rw [h2]; exact h0
        · have : ¬ k < a.release.parts.length := by unfold Release.precision at *; omega
          simp [Release.part, this]
      omega
  have hb' : ¬ v.release.compareParts < a.release.compareParts := by
    rw [compareParts_lt_iff _ _ hv.release ha.release hnv hna]; exact hb
  rcases (key_lt_iff _ _).1 hlt with h | ⟨-, h | ⟨h, -⟩⟩
  · rw [hs.1] at h; omega
  · exact hb' h
  · exact hl ((lt_final_iff hf (by rw [hs.1]) h).1 hlt)

/-- C18. `== p.*` is the version `p.0` with the wildcard operator. A final, post or local version is accepted iff its
epoch and leading parts are those of `p`. -/
theorem C18_wildcard (a v : Version) (ha : a.Valid) (hna : a.release.NonNeg) (hp : 2 ≤ a.release.precision) (hf : a.IsFinal)
    (h0 : a.release.part (a.release.precision - 1) = 0) (hv : v.Valid) (hnv : v.release.NonNeg) (hl : ¬ v.LeadsToFinal) :
    ∃ b, v.matchesWildcardEqual a = .ok b ∧ (b = true ↔ v.SamePrefix (a.release.precision - 1) a) := by
  obtain ⟨b, h1, h2⟩ := C18_wildcard_general a v ha hna hp ⟨hf.1, hf.2.1, hf.2.2.1⟩ hv hnv
  refine ⟨b, h1, ?_⟩
  rw [h2, not_numbersBumped hl]
  exact ⟨fun h => h.2, fun h => ⟨wildcard_min ha (by omega) hf h0 hna hv hnv hl h, h⟩⟩

example : (exVersion [1, 2, 0]).Valid ∧ (exVersion [1, 2, 0]).IsFinal ∧ (exVersion [1, 2, 0]).release.part 2 = 0 ∧
    (exVersion [1, 2, 7, 1]).SamePrefix 2 (exVersion [1, 2, 0]) ∧
    (exVersion [1, 2, 7, 1]).matchesWildcardEqual (exVersion [1, 2, 0]) = .ok true := by decide +kernel

/-- C18. `== a.post.*`: from `a` on, the versions of the same release, and those leading to the next one. -/
theorem C18_wildcard_post (a v : Version) (ha : a.Valid) (hna : a.release.NonNeg) (hf : a.pre = none ∧ a.post ≠ none ∧ a.dev = none)
    (hv : v.Valid) (hnv : v.release.NonNeg) :
    ∃ b, v.matchesWildcardEqual a = .ok b ∧ (b = true ↔ a ≤ₚ v ∧ (v.SamePrefix a.release.precision a ∨
      (a.NumbersBumped (a.release.precision - 1) v ∧ v.LeadsToFinal))) := by
  have hpos : 0 < a.release.precision := (precision_pos_iff _).2 ha.release
  obtain ⟨w, h1, hb⟩ := (wildcard_spec ha).2.2.1 hf.1 hf.2.1 hf.2.2
  refine ⟨_, wildcardEqual_ok h1 v, window_iff fun h => ?_⟩
  rw [hb.window ha hna hv hnv h, show a.release.precision - 1 + 1 = a.release.precision by omega]

example : (exVersion [1, 2] none (some postTag)).Valid ∧
    (exVersion [1, 2, 0, 5]).matchesWildcardEqual (exVersion [1, 2] none (some postTag)) = .ok true ∧
    (exVersion [1, 2]).matchesWildcardEqual (exVersion [1, 2] none (some postTag)) = .ok false ∧
    (exVersion [1, 3] (some rcTag)).matchesWildcardEqual (exVersion [1, 2] none (some postTag)) = .ok true := by decide +kernel

/-- C18. `== a.*` on an unstable version: from `a` on, the versions of the same release leading to the final one. -/
theorem C18_wildcard_unstable (a v : Version) (ha : a.Valid) (hu : a.pre ≠ none ∨ a.dev ≠ none) (hv : v.Valid) :
    ∃ b, v.matchesWildcardEqual a = .ok b ∧ (b = true ↔ a ≤ₚ v ∧ v.SameNumbers a ∧ v.LeadsToFinal) := by
  obtain ⟨w, h1, h2⟩ := (wildcard_spec ha).2.2.2 ((unstable_iff a).2 hu)
  exact ⟨_, wildcardEqual_ok h1 v, window_iff (h2.window ha hv)⟩

example : (exVersion [1, 2] (some ⟨"rc".toList, 9⟩)).matchesWildcardEqual (exVersion [1, 2] (some rcTag)) = .ok true ∧
    (exVersion [1, 2]).matchesWildcardEqual (exVersion [1, 2] (some rcTag)) = .ok false := by decide +kernel

/-- C18. `!= a.*` accepts exactly the versions that `== a.*` does not. -/
theorem C18_wildcard_not (a v : Version) (ha : a.Valid) :
    ∃ b, v.matchesWildcardEqual a = .ok b ∧ v.matchesWildcardNotEqual a = .ok (!b) := by
  have : ∃ b, v.matchesWildcardEqual a = .ok b := by
    rcases wildcard_upper ha with h | ⟨w, h, -⟩
    · exact ⟨true, by simp [Version.matchesWildcardEqual, h, bind, Except.bind]⟩
    · exact ⟨_, wildcardEqual_ok h v⟩
  obtain ⟨b, hb⟩ := this
  exact ⟨b, hb, by simp [Version.matchesWildcardNotEqual, hb, bind, Except.bind]⟩

example : (exVersion [1, 3]).matchesWildcardNotEqual (exVersion [1, 2, 0]) = .ok true ∧
    (exVersion [1, 3]).matchesWildcardEqual (exVersion [1, 2, 0]) = .ok false := by decide +kernel

example : (exVersion [1, 2, 7] none (some postTag)).matchesWildcardEqual (exVersion [1, 2, 0]) = .ok true := by decide +kernel
example : (exVersion [1, 3]).matchesWildcardEqual (exVersion [1, 2, 0]) = .ok false := by decide +kernel
example : (exVersion [1, 3]).matchesWildcardNotEqual (exVersion [1, 2, 0]) = .ok true := by decide +kernel
example : (exVersion [1, 2, 5]).matchesTilde (exVersion [1, 2, 3]) = .ok true := by decide +kernel
example : (exVersion [1]).matchesTilde (exVersion [1] (some rcTag)) = .ok false := by decide +kernel

/-! ## C15, C16: translation -/

theorem range_translate {next : Version → Except PyErr Version} {a w : Version} (h : next a = .ok w) :
    (do .ok (.item (← Item.mkRange (some a) (some (← next a)) true false)) : Except PyErr VSet) =
      if w.key < a.key then .error .valueError else .ok (window a w) := by
  simp only [bind, Except.bind, h, mkRange_window]
  split
  · rename_i h2; split at h2 <;> simp_all
  · rename_i h2; split at h2
    · simp at h2
    · simp at h2; subst h2; rename_i h3; rw [if_neg h3]; rfl

theorem chained_contains {next : Version → Except PyErr Version} {a w : Version} (h : next a = .ok w) (v : Version) :
    Version.chained next v a = .ok ((window a w).contains v) := by rw [chained_ok h, window_contains]

theorem wildcard_translate {a w : Version} (h : a.nextWildcardBreaking = .ok (some w)) :
    a.translateWildcardEqual = if w.key < a.key then .error .valueError else .ok (window a w) := by
  simp only [Version.translateWildcardEqual, bind, Except.bind, h, mkRange_window]
  split
  · rename_i h2; split at h2 <;> simp_all
  · rename_i h2; split at h2
    · simp at h2
    · simp at h2; subst h2; rename_i h3; rw [if_neg h3]; rfl

theorem wildcard_translate_star {a : Version} (h : a.nextWildcardBreaking = .ok none) :
    a.translateWildcardEqual = .ok .universal := by
  simp [Version.translateWildcardEqual, bind, Except.bind, h]; rfl

/-- What an operator amounts to: it translates, into a set in normal form that contains just what it accepts, or it does
not translate and accepts nothing (`!=*`: everything). -/
def OpView (o : Operator) : Prop :=
  (∃ s, (∀ lim, o.toSet lim = .ok s) ∧ s.Normal ∧ ∀ v, o.accepts v = .ok (s.contains v)) ∨
  ((∀ lim, o.toSet lim = .error .valueError) ∧ ∀ v, o.accepts v = .ok (decide (o.type = .wildcardNotEqual)))

theorem window_empty {a w v : Version} (h : w.key < a.key) : (PyCmp.le a v && PyCmp.lt v w) = false := by
  rw [← Bool.not_eq_true, Bool.and_eq_true, vle_iff, vlt_iff]
  rintro ⟨h1, h2⟩; order

theorem chained_view {o : Operator} {next : Version → Except PyErr Version} {w : Version} (h : next o.version = .ok w)
    (hne : o.version.key ≠ w.key) (ht : o.type ≠ .wildcardNotEqual)
    (h1 : ∀ lim, o.toSet lim = (do .ok (.item (← Item.mkRange (some o.version) (some (← next o.version)) true false))))
    (h2 : ∀ v, o.accepts v = Version.chained next v o.version) : OpView o := by
  by_cases hlt : w.key < o.version.key
  · right
    refine ⟨fun lim => by rw [h1, range_translate h, if_pos hlt], fun v => ?_⟩
    rw [h2, chained_ok h, window_empty hlt]; simp [ht]
  · left
    refine ⟨window o.version w, fun lim => by rw [h1, range_translate h, if_neg hlt], window_normal (by order), fun v => ?_⟩
    rw [h2, chained_contains h]

theorem wildcard_view {a : Version} (ha : a.Valid) :
    (∃ s, a.translateWildcardEqual = .ok s ∧ s.Normal ∧ (∀ v : Version, v.matchesWildcardEqual a = .ok (s.contains v)) ∧
      ∃ t, (∀ lim, a.translateWildcardNotEqual lim = .ok t) ∧ t.Normal ∧ ∀ v, t.contains v = !s.contains v) ∨
    (a.translateWildcardEqual = .error .valueError ∧ (∀ v : Version, v.matchesWildcardEqual a = .ok false) ∧
      ∀ lim, a.translateWildcardNotEqual lim = .error .valueError) := by
  rcases wildcard_upper ha with h | ⟨w, h, hu⟩
  · left
    refine ⟨.universal, wildcard_translate_star h, universal_normal, fun v => ?_, .empty, fun lim => ?_, trivial, fun v => ?_⟩
    · simp [Version.matchesWildcardEqual, h, bind, Except.bind]; rfl
    · simp [Version.translateWildcardNotEqual, wildcard_translate_star h, not_universal, bind, Except.bind]
    · rfl
  · have hne := hu.ne ha
    by_cases hlt : w.key < a.key
    · right
      refine ⟨by rw [wildcard_translate h, if_pos hlt], fun v => ?_, fun lim => ?_⟩
      · rw [wildcardEqual_ok h, window_empty hlt]
      · simp [Version.translateWildcardNotEqual, wildcard_translate h, if_pos hlt, bind, Except.bind]
    · left
      have hlt' : a.key < w.key := by order
      obtain ⟨items, c1, c2, c3⟩ := complement_window hlt'
      refine ⟨window a w, by rw [wildcard_translate h, if_neg hlt], window_normal hlt', fun v => ?_, .union items,
        fun lim => ?_, c2, fun v => complement_contains c3 v⟩
      · rw [wildcardEqual_ok h, window_contains]
      · simp [Version.translateWildcardNotEqual, wildcard_translate h, if_neg hlt, c1, bind, Except.bind]

theorem simple_contains (a v : Version) :
    (VSet.item (.range ⟨none, some a, false, false⟩)).contains v = PyCmp.lt v a ∧
    (VSet.item (.range ⟨none, some a, false, true⟩)).contains v = PyCmp.le v a ∧
    (VSet.item (.range ⟨some a, none, false, false⟩)).contains v = PyCmp.gt v a ∧
    (VSet.item (.range ⟨some a, none, true, false⟩)).contains v = PyCmp.ge v a := by
  refine ⟨?_, ?_, ?_, ?_⟩ <;> rw [Bool.eq_iff_iff, vset_contains_iff_mem] <;>
    simp [VSet.Mem, Item.Mem, AboveMin, BelowMax, vlt_iff, vle_iff, vgt_iff, vge_iff, veq_iff, le_iff_lt_or_eq]

theorem point_contains (a v : Version) : (VSet.item (.point a)).contains v = PyCmp.eq v a := by
  show PyCmp.eq a v = PyCmp.eq v a
  rw [veq_eq, veq_eq]; simp [eq_comm]

/-- Every operator whose constructor succeeded is one or the other. -/
theorem op_view {o : Operator} (hv : o.version.Valid) (ht : o.type = .tildeEqual → 2 ≤ o.version.release.precision) :
    OpView o := by
  obtain ⟨t, a⟩ := o
  simp only at hv ht
  have hsimple := simple_contains a
  cases t with
  | tildeEqual =>
    obtain ⟨w, h1, hb⟩ := (tildeEqual_spec hv).2 (ht rfl)
    exact chained_view (next := Version.nextTildeEqualBreaking) h1 (hb.ne hv) (by simp) (fun _ => rfl) (fun _ => rfl)
  | caret =>
    obtain ⟨w, h1, h2, h3, h4⟩ := caret_spec hv
    refine chained_view (next := Version.nextCaretBreaking) h1 ?_ (by simp) (fun _ => rfl) (fun _ => rfl)
    cases hs : a.isStable with
    | true => obtain ⟨i, -, hb⟩ := h2 hs; exact hb.ne hv
    | false =>
      by_cases h0 : a.release.part 0 = 0
      · exact (h4 hs h0).ne
      · exact (h3 hs h0).ne hv
  | tilde =>
    obtain ⟨w, h1, h2, h3⟩ := tilde_spec hv
    refine chained_view (next := Version.nextTildeBreaking) h1 ?_ (by simp) (fun _ => rfl) (fun _ => rfl)
    cases hs : a.isStable with
    | true => exact (h2 hs).ne hv
    | false => exact (h3 hs).ne
  | doubleEqual => exact .inl ⟨.item (.point a), fun _ => rfl, point_normal a, fun v => by
      rw [point_contains]; rfl⟩
  | equal => exact .inl ⟨.item (.point a), fun _ => rfl, point_normal a, fun v => by
      rw [point_contains]; rfl⟩
  | notEqual =>
    obtain ⟨items, c1, c2, c3⟩ := complement_point a
    refine .inl ⟨.union items, fun lim => ?_, c2, fun v => ?_⟩
    · simp [Operator.toSet, OpType.translate, Version.translateNotEqual, Version.translateEqual, c1, bind, Except.bind]
    · rw [complement_contains c3, point_contains]; rfl
  | less => exact .inl ⟨.item (.range ⟨none, some a, false, false⟩), fun _ => rfl, ⟨by simp, by simp, by simp⟩, fun v => by
      rw [(hsimple v).1]; rfl⟩
  | lessOrEqual => exact .inl ⟨.item (.range ⟨none, some a, false, true⟩), fun _ => rfl, ⟨by simp, by simp, by simp⟩, fun v => by
      rw [(hsimple v).2.1]; rfl⟩
  | greater => exact .inl ⟨.item (.range ⟨some a, none, false, false⟩), fun _ => rfl, ⟨by simp, by simp, by simp⟩, fun v => by
      rw [(hsimple v).2.2.1]; rfl⟩
  | greaterOrEqual => exact .inl ⟨.item (.range ⟨some a, none, true, false⟩), fun _ => rfl, ⟨by simp, by simp, by simp⟩, fun v => by
      rw [(hsimple v).2.2.2]; rfl⟩
  | wildcardDoubleEqual =>
    rcases wildcard_view hv with ⟨s, h1, h2, h3, -⟩ | ⟨h1, h2, -⟩
    · exact .inl ⟨s, fun _ => h1, h2, h3⟩
    · exact .inr ⟨fun _ => h1, h2⟩
  | wildcardEqual =>
    rcases wildcard_view hv with ⟨s, h1, h2, h3, -⟩ | ⟨h1, h2, -⟩
    · exact .inl ⟨s, fun _ => h1, h2, h3⟩
    · exact .inr ⟨fun _ => h1, h2⟩
  | wildcardNotEqual =>
    rcases wildcard_view hv with ⟨s, h1, h2, h3, t, t1, t2, t3⟩ | ⟨h1, h2, h3⟩
    · refine .inl ⟨t, t1, t2, fun v => ?_⟩
      rw [t3]
      simp [Operator.accepts, OpType.matches_, Version.matchesWildcardNotEqual, h3, bind, Except.bind]
    · refine .inr ⟨h3, fun v => ?_⟩
      simp [Operator.accepts, OpType.matches_, Version.matchesWildcardNotEqual, h2, bind, Except.bind]

/-- C15. If an operator translates, its set contains exactly the versions that it accepts. (And accepting never fails.) -/
theorem C15_translation_exact (o : Operator) (hv : o.version.Valid) (s : VSet) (lim : Nat) (h : o.toSet lim = .ok s) (v : Version) :
    ∃ b, o.accepts v = .ok b ∧ (b = true ↔ s.Mem v) := by
  have hp : 0 < o.version.release.precision := (precision_pos_iff _).2 hv.release
  have ht : o.type = .tildeEqual → 2 ≤ o.version.release.precision := by
    intro ht
    by_contra hc
    obtain ⟨t, a⟩ := o
    simp only at ht hc hv hp
    subst ht
    have := (tildeEqual_spec hv).1 (by omega)
    simp [Operator.toSet, OpType.translate, Version.translateTildeEqual, this, bind, Except.bind] at h
  rcases op_view hv ht with ⟨s', h1, h2, h3⟩ | ⟨h1, h2⟩
  · rw [h1] at h; injection h with h; subst h
    exact ⟨_, h3 v, vset_contains_iff_mem _ _⟩
  · rw [h1] at h; cases h

example : (Operator.mk .notEqual (exVersion [1])).toSet 0 =
    .ok (.union [exRange none (some [1]) false, exRange (some [1]) none false]) := by decide +kernel
example : (Operator.mk .wildcardNotEqual (exVersion [1, 0])).toSet 0 =
    .ok (.union [exRange none (some [1, 0]) false, exRange (some [2, 0]) none]) := by decide +kernel

/-- C16. Which operators do not translate, and that they fail with `ValueError`. -/
theorem C16_failure (o : Operator) (ho : o.Valid) (lim : Nat) :
    (¬ o.Broken → ∃ s, ∀ lim, o.toSet lim = .ok s) ∧ (o.Broken → o.toSet lim = .error .valueError) := by
  obtain ⟨hv, hn, ht⟩ := ho
  have key : o.Broken ↔ o.toSet lim = .error .valueError := by
    obtain ⟨t, a⟩ := o
    simp only at hv ht hn
    have hdev : a.isStable = true → ¬ a.IsDevOfPost := fun hs hd => hd.2.2 ((stable_iff a).1 hs).2
    have wild : (a.IsDevOfPost ↔ a.translateWildcardEqual = .error .valueError) := by
      rcases wildcard_upper hv with h | ⟨w, h, -⟩
      · rw [wildcard_translate_star h]
        simp only [reduceCtorEq, iff_false]
        intro hd
        obtain ⟨w, h', -⟩ := (wildcard_spec hv).2.2.2 ((unstable_iff a).2 (.inr hd.2.2))
        rw [h] at h'; cases h'
      · rw [wildcard_translate h]
        cases hs : a.isStable with
        | false =>
          obtain ⟨w', h', hd⟩ := (wildcard_spec hv).2.2.2 hs
          rw [h] at h'; cases h'
          rw [← hd.gt_iff]
          split <;> simp_all
        | true =>
          have hlt : a.key < w.key := by
            obtain ⟨p1, p2⟩ := (stable_iff a).1 hs
            have hp : 0 < a.release.precision := (precision_pos_iff _).2 hv.release
            by_cases hq : a.post = none
            · by_cases h1 : a.release.precision = 1
              · have := (wildcard_spec hv).1 p1 hq p2 h1; rw [h] at this; cases this
              · obtain ⟨w', h', hb⟩ := (wildcard_spec hv).2.1 p1 hq p2 (by omega)
                rw [h] at h'; cases h'; exact hb.lt hv hn
            · obtain ⟨w', h', hb⟩ := (wildcard_spec hv).2.2.1 p1 hq p2
              rw [h] at h'; cases h'; exact hb.lt hv hn
          rw [if_neg (not_lt_of_gt hlt)]
          simp [hdev hs]
    have wildNot : a.IsDevOfPost ↔ a.translateWildcardNotEqual lim = .error .valueError := by
      rw [wild]
      rcases wildcard_view hv with ⟨s, h1, -, -, t, t1, -⟩ | ⟨h1, -, h3⟩
      · rw [h1, t1]; simp
      · rw [h1, h3]
    cases t with
    | tildeEqual =>
      obtain ⟨w, h1, hb⟩ := (tildeEqual_spec hv).2 (ht rfl)
      have : (Operator.mk .tildeEqual a).toSet lim = _ := range_translate (next := Version.nextTildeEqualBreaking) h1
      rw [this, if_neg (not_lt_of_gt (hb.lt hv hn))]
      simp [Operator.Broken]
    | caret =>
      obtain ⟨w, h1, h2, h3, h4⟩ := caret_spec hv
      have : (Operator.mk .caret a).toSet lim = _ := range_translate (next := Version.nextCaretBreaking) h1
      rw [this]
      cases hs : a.isStable with
      | true =>
        obtain ⟨i, -, hb⟩ := h2 hs
        rw [if_neg (not_lt_of_gt (hb.lt hv hn))]
        simp [Operator.Broken, hdev hs]
      | false =>
        by_cases h0 : a.release.part 0 = 0
        · simp only [Operator.Broken, h0, reduceCtorEq, true_and, or_false, and_true]
          rw [← (h4 hs h0).gt_iff]
          split <;> simp_all
        · rw [if_neg (not_lt_of_gt ((h3 hs h0).lt hv hn))]
          simp [Operator.Broken, h0]
    | tilde =>
      obtain ⟨w, h1, h2, h3⟩ := tilde_spec hv
      have : (Operator.mk .tilde a).toSet lim = _ := range_translate (next := Version.nextTildeBreaking) h1
      rw [this]
      cases hs : a.isStable with
      | true =>
        rw [if_neg (not_lt_of_gt ((h2 hs).lt hv hn))]
        simp [Operator.Broken, hdev hs]
      | false =>
        simp only [Operator.Broken, reduceCtorEq, false_and, true_or, or_true, and_true]
        rw [← (h3 hs).gt_iff]
        split <;> simp_all
    | wildcardDoubleEqual => simpa [Operator.Broken, Operator.toSet, OpType.translate] using wild
    | wildcardEqual => simpa [Operator.Broken, Operator.toSet, OpType.translate] using wild
    | wildcardNotEqual => simpa [Operator.Broken, Operator.toSet, OpType.translate] using wildNot
    | notEqual =>
      obtain ⟨items, c1, -⟩ := complement_point a
      simp [Operator.Broken, Operator.toSet, OpType.translate, Version.translateNotEqual, Version.translateEqual, c1, bind, Except.bind]
    | _ => simp [Operator.Broken]; intro h; cases h
  rcases op_view hv ht with ⟨s, h1, -⟩ | ⟨h1, -⟩
  · exact ⟨fun _ => ⟨s, h1⟩, key.1⟩
  · exact ⟨fun h => absurd (key.2 (h1 lim)) h, fun _ => h1 lim⟩

example : (Operator.mk .caret (exVersion [0, 1] none (some postTag) (some devTag))).Valid ∧
    (Operator.mk .caret (exVersion [0, 1] none (some postTag) (some devTag))).Broken ∧
    (Operator.mk .caret (exVersion [0, 1] none (some postTag) (some devTag))).toSet 5 = .error .valueError ∧
    ¬ (Operator.mk .caret (exVersion [1, 1] none (some postTag) (some devTag))).Broken := by decide +kernel

/-- C16. An operator that does not translate accepts no version at all; `!=*` accepts every version. -/
theorem C16_accepts (o : Operator) (ho : o.Valid) (hb : o.Broken) (v : Version) :
    o.accepts v = .ok (decide (o.type = .wildcardNotEqual)) := by
  rcases op_view ho.version ho.tildeEqual with ⟨s, h1, -⟩ | ⟨-, h2⟩
  · have := (C16_failure o ho 0).2 hb
    rw [h1] at this; cases this
  · exact h2 v

example (v : Version) : (Operator.mk .caret (exVersion [0, 1] none (some postTag) (some devTag))).accepts v = .ok false ∧
    (Operator.mk .wildcardNotEqual (exVersion [0, 1] none (some postTag) (some devTag))).accepts v = .ok true :=
  ⟨C16_accepts _ (by decide +kernel) (by decide +kernel) v, C16_accepts _ (by decide +kernel) (by decide +kernel) v⟩

/-- C16. There are such operators: `~1.0.post1.dev1`. -/
theorem C16_example : (Operator.mk .tilde (exVersion [1, 0] none (some postTag) (some devTag))).Valid ∧
    (Operator.mk .tilde (exVersion [1, 0] none (some postTag) (some devTag))).Broken :=
  ⟨⟨exValid _ (by simp) _ _ _ (by simp) (by simp) (by simp), by simp [Release.NonNeg, exVersion], by simp⟩,
    ⟨rfl, by simp [exVersion], by simp [exVersion]⟩, by simp⟩

example : (Operator.mk .tilde (exVersion [1, 0] none (some postTag) (some devTag))).toSet 7 = .error .valueError :=
  (C16_failure _ C16_example.1 _).2 C16_example.2

/-- C16. An operator accepting never raises, for those that passed the constructor. -/
theorem C16_accepts_total (o : Operator) (hv : o.version.Valid) (o' : Operator) (hc : Operator.create o.type o.version = .ok o')
    (v : Version) : o' = o ∧ ∃ b, o.accepts v = .ok b := by
  have hp : 0 < o.version.release.precision := (precision_pos_iff _).2 hv.release
  obtain ⟨c1, c2⟩ := C17_constructor o.type o.version hv
  by_cases h : o.type = .tildeEqual ∧ o.version.release.precision = 1
  · rw [c1 h] at hc; cases hc
  · rw [c2 h] at hc; injection hc with hc
    refine ⟨hc.symm, ?_⟩
    rcases op_view hv (fun ht => by by_contra hc; exact h ⟨ht, by omega⟩) with ⟨s, -, -, h3⟩ | ⟨-, h2⟩
    · exact ⟨_, h3 v⟩
    · exact ⟨_, h2 v⟩

example (v : Version) : ∃ b, (Operator.mk .tildeEqual (exVersion [1, 0])).accepts v = .ok b :=
  (C16_accepts_total _ (by decide +kernel) ⟨.tildeEqual, exVersion [1, 0]⟩ (by decide +kernel) v).2

/-! ## C19: every set comes in normal form -/

/-- The sets that programs can build: by translating operators and by set operations. -/
inductive Built : VSet → Prop
  | empty : Built .empty
  | universal : Built .universal
  | translate (o : Operator) (h : o.version.Valid) (lim : Nat) (s : VSet) (e : o.toSet lim = .ok s) : Built s
  | union (a b : VSet) (ha : Built a) (hb : Built b) (lim : Nat) (s : VSet) (e : a.unionWith lim b = .ok s) : Built s
  | intersection (a b : VSet) (ha : Built a) (hb : Built b) (lim : Nat) (s : VSet) (e : a.intersection lim b = .ok s) : Built s
  | difference (a b : VSet) (ha : Built a) (hb : Built b) (lim : Nat) (s : VSet) (e : a.difference lim b = .ok s) : Built s
  | complement (a : VSet) (ha : Built a) (lim : Nat) (s : VSet) (e : a.complement lim = .ok s) : Built s
  | symmetricDifference (a b : VSet) (ha : Built a) (hb : Built b) (lim : Nat) (s : VSet)
      (e : a.symmetricDifference lim b = .ok s) : Built s

/-- C19. Every set that programs can build is in normal form. -/
theorem C19_built_normal (s : VSet) (h : Built s) : s.Normal := by
  induction h with
  | empty => trivial
  | universal => exact universal_normal
  | translate o h lim s e =>
    have ht : o.type = .tildeEqual → 2 ≤ o.version.release.precision := by
      intro ht
      by_contra hc
      have hp : 0 < o.version.release.precision := (precision_pos_iff _).2 h.release
      obtain ⟨t, a⟩ := o
      simp only at ht hc h hp
      subst ht
      have := (tildeEqual_spec h).1 (by omega)
      simp [Operator.toSet, OpType.translate, Version.translateTildeEqual, this, bind, Except.bind] at e
    rcases op_view h ht with ⟨s', h1, h2, -⟩ | ⟨h1, -⟩
    · rw [h1] at e; injection e with e; subst e; exact h2
    · rw [h1] at e; cases e
  | union a b ha hb lim s e iha ihb => exact C19_normal_closed a b s iha ihb lim (.inr (.inl e))
  | intersection a b ha hb lim s e iha ihb => exact C19_normal_closed a b s iha ihb lim (.inl e)
  | difference a b ha hb lim s e iha ihb => exact C19_normal_closed a b s iha ihb lim (.inr (.inr (.inl e)))
  | complement a ha lim s e iha => exact C19_normal_closed a a s iha iha lim (.inr (.inr (.inr (.inl e))))
  | symmetricDifference a b ha hb lim s e iha ihb => exact C19_normal_closed a b s iha ihb lim (.inr (.inr (.inr (.inr e))))

/-- The set of `^1.2, != 1.5` is built. -/
example : Built (.union [.range ⟨some (exVersion [1, 2]), some (exVersion [1, 5]), true, false⟩,
    .range ⟨some (exVersion [1, 5]), some (exVersion [2, 0]), false, false⟩]) := by
  refine .intersection (window (exVersion [1, 2]) (exVersion [2, 0]))
    (.union [exRange none (some [1, 5]) false, exRange (some [1, 5]) none false])
    (.translate ⟨.caret, exVersion [1, 2]⟩ (exValid _ (by simp) _ _ _ (by simp) (by simp) (by simp)) 2 _ (by decide +kernel))
    (.translate ⟨.notEqual, exVersion [1, 5]⟩ (exValid _ (by simp) _ _ _ (by simp) (by simp) (by simp)) 2 _ (by decide +kernel))
    2 _ (by decide +kernel)

end Verif
