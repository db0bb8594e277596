import Verif.Props.Versions
/-!
# C64: negative indices, slices

Python counts negative indices from the end. The methods of releases and versions that take an index do not check for
negative ones.
-/

namespace Verif

theorem pyIndex_back (n i : Nat) (h : i < n) : pyIndex n ((i : Int) - n) = some i := by
  unfold pyIndex
  rw [if_neg (by omega), if_pos (by omega)]
  congr 1
  omega

theorem pyIndex_far (n k : Nat) (h : n < k) : pyIndex n (-(k : Int)) = none := by
  unfold pyIndex
  rw [if_neg (by omega), if_neg (by omega)]

theorem padTo_short (r : Release) (n : Int) (h : n ≤ r.precision) : r.padTo n = .ok r := by
  unfold Release.padTo
  rw [if_neg (by omega)]

theorem getAt_back (r : Release) (i : Nat) (d : Int) (h : i < r.precision) : r.getAt ((i : Int) - r.precision) d = .ok (r.part i) := by
  unfold Release.getAt Release.hasAt
  rw [if_pos (by rw [decide_eq_true_eq]; omega)]
  unfold Release.getAtUnchecked pyGet
  rw [show r.parts.length = r.precision from rfl, pyIndex_back _ _ h]
  have h' : i < r.parts.length := h
  simp [Release.part, List.getElem?_eq_getElem h', List.getD_eq_getElem?_getD]

theorem setAt_back (r : Release) (i : Nat) (x : Int) (h : i < r.precision) : r.setAt ((i : Int) - r.precision) x = r.setAt i x := by
  unfold Release.setAt Release.padToIndex increment
  rw [padTo_short r _ (by omega), padTo_short r _ (by omega)]
  show r.setAtUnchecked _ x = r.setAtUnchecked _ x
  rw [setAtUnchecked_nat, if_pos h]
  unfold Release.setAtUnchecked pySet
  rw [show r.parts.length = r.precision from rfl, pyIndex_back _ _ h]
  have h' : r.parts.set i x ≠ [] := by
    rw [← List.length_pos_iff, List.length_set]
    exact Nat.lt_of_le_of_lt (Nat.zero_le _) h
  show Release.create _ = _
  rw [create_ok h']

/-- C64. The index `i - n`, in a release of `n` parts, is the index `i` for reading and writing. -/
theorem C64_back (v : Version) (i : Nat) (x d : Int) (h : i < v.precision) :
    v.getAt ((i : Int) - v.precision) d = .ok (v.release.part i) ∧
    v.setAt ((i : Int) - v.precision) x = v.setAt i x := by
  refine ⟨getAt_back v.release i d h, ?_⟩
  unfold Version.setAt Version.precision
  rw [setAt_back v.release i x h]

example : (exVersion [1, 2, 3]).getAt (-1) = .ok 3 ∧ (exVersion [1, 2, 3]).setAt (-2) 7 = .ok (exVersion [1, 7, 3]) ∧
    (exVersion [1, 2, 3]).getAt (-4) = .error .indexError := by decide +kernel

/-- C64. Bumping works with negative indices as well, except for the last part: `next_at(-1)` is a ValueError for every
release. -/
theorem C64_next_back (r : Release) (i : Nat) (h : i < r.precision) :
    r.nextAt ((i : Int) - r.precision) = if i + 1 = r.precision then .error .valueError else r.nextAt i := by
  have hne : r.parts ≠ [] := by
    rw [← List.length_pos_iff]
    exact Nat.lt_of_le_of_lt (Nat.zero_le _) h
  unfold Release.nextAt
  rw [getAt_back r i 0 h, getAt_nat r i 0, if_pos h]
  simp only [bind, Except.bind]
  rw [setAt_back r i _ h]
  obtain ⟨u, hu, hup, -⟩ := setAt_nat r hne i (increment (r.part i))
  have hup : u.precision = r.precision := by omega
  rw [hu]
  simp only
  rw [slice_nat]
  by_cases e : i + 1 = r.precision
  · rw [if_pos e]
    have e' : increment ((i : Int) - r.precision) = 0 := by unfold increment; omega
    rw [e']
    rfl
  · rw [if_neg e]
    have e' : u.slice (increment ((i : Int) - r.precision)) = Release.create (u.parts.take (i + 1)) := by
      unfold Release.slice Release.sliceParts pySliceTo
      rw [if_neg (by unfold increment; omega)]
      congr 2
      have : (u.parts.length : Int) = r.precision := by exact_mod_cast hup
      unfold increment
      omega
    rw [e']

example : (⟨[1, 2, 3]⟩ : Release).nextAt (-1) = .error .valueError ∧ (⟨[1, 2, 3]⟩ : Release).nextAt (-2) = .ok ⟨[1, 3, 0]⟩ ∧
    (⟨[1, 2, 3]⟩ : Release).nextAt 2 = .ok ⟨[1, 2, 4]⟩ := by decide +kernel

/-- C64, violation. `has_at` says that every negative index is present; beyond the first part, reading, writing and bumping
there raise an IndexError, even reading with a default. -/
theorem C64_before_start (v : Version) (k : Nat) (x d : Int) (h : v.precision < k) :
    v.hasAt (-(k : Int)) = true ∧ v.getAt (-(k : Int)) d = .error .indexError ∧ v.setAt (-(k : Int)) x = .error .indexError ∧
    v.release.nextAt (-(k : Int)) = .error .indexError := by
  have h0 : v.release.hasAt (-(k : Int)) = true := by
    unfold Release.hasAt
    rw [decide_eq_true_eq]
    have : (0 : Int) ≤ v.release.precision := Int.natCast_nonneg _
    have : 0 < k := Nat.lt_of_le_of_lt (Nat.zero_le _) h
    omega
  have h : v.release.parts.length < k := h
  have h1 : ∀ d, v.release.getAt (-(k : Int)) d = .error .indexError := by
    intro d
    unfold Release.getAt
    rw [if_pos h0]
    unfold Release.getAtUnchecked pyGet
    rw [pyIndex_far _ _ h]
  refine ⟨h0, h1 d, ?_, ?_⟩
  · unfold Version.setAt Release.setAt Release.padToIndex increment
    rw [padTo_short _ _ (by omega)]
    unfold Release.setAtUnchecked pySet
    simp only [bind, Except.bind]
    rw [pyIndex_far _ _ h]
  · unfold Release.nextAt
    rw [h1]
    rfl

example : (exVersion [1, 2, 3]).hasAt (-7) = true ∧ (exVersion [1, 2, 3]).getAt (-7) 5 = .error .indexError := by decide +kernel

/-- C64. `slice(i)` keeps the first `i` parts and everything else; it fails exactly for `slice(0)`. -/
theorem C64_slice (v : Version) (hv : v.Valid) (i : Nat) :
    if i = 0 then v.slice i = .error .valueError
    else ∃ w, v.slice i = .ok w ∧ w.precision = min i v.precision ∧
      (∀ j, w.release.part j = if j < i then v.release.part j else 0) ∧ w = { v with release := w.release } := by
  have e : v.release.slice (i : Int) = Release.create (v.release.parts.take i) := by
    unfold Release.slice Release.sliceParts pySliceTo
    rw [if_pos (by omega)]
    rfl
  unfold Version.slice
  rw [e]
  split
  · rename_i h0
    subst h0
    rfl
  · rename_i h0
    have hne : v.release.parts.take i ≠ [] := by
      have := List.length_pos_iff.2 hv.release
      rw [← List.length_pos_iff, List.length_take]
      omega
    rw [create_ok hne]
    refine ⟨_, rfl, ?_, ?_, rfl⟩
    · simp [Version.precision, Release.precision, Version.setRelease]
    · intro j
      simp only [Version.setRelease, Release.part, List.getD_eq_getElem?_getD, List.getElem?_take]
      split <;> rfl

example : (exVersion [1, 2, 3] (some rcTag)).slice 2 = .ok (exVersion [1, 2] (some rcTag)) ∧ (exVersion [1, 2]).slice 5 = .ok (exVersion [1, 2]) ∧
    (exVersion [1, 2]).slice 0 = .error .valueError := by decide +kernel

/-- C64. A slice is never greater, if no part is negative. -/
theorem C64_slice_below (v w : Version) (hv : v.Valid) (hn : v.release.NonNeg) (i : Nat) (h : v.slice i = .ok w) : w ≤ₚ v := by
  have hs := C64_slice v hv i
  split at hs
  · rw [hs] at h; cases h
  · obtain ⟨w', h1, h2, h3, h4⟩ := hs
    rw [h1] at h
    cases h
    have hw : w.release.parts ≠ [] := by
      have := List.length_pos_iff.2 hv.release
      rw [← List.length_pos_iff]
      change w.precision = min i v.release.parts.length at h2
      change 0 < w.precision
      omega
    have hp : ∀ j, 0 ≤ v.release.part j := by
      intro j
      unfold Release.part
      rw [List.getD_eq_getElem?_getD]
      cases e : v.release.parts[j]? with
      | none => simp
      | some x => exact hn x (List.mem_of_getElem? e)
    have hwn : w.release.NonNeg := by
      intro x hx
      obtain ⟨j, hj, rfl⟩ := List.getElem_of_mem hx
      have := h3 j
      have e : w.release.part j = w.release.parts[j] := by simp [Release.part, List.getD_eq_getElem?_getD, hj]
      rw [← e, this]
      split
      · exact hp j
      · exact le_refl _
    have he : w.epoch = v.epoch ∧ w.pre = v.pre ∧ w.post = v.post ∧ w.dev = v.dev ∧ w.local_ = v.local_ := by
      rw [h4]
      exact ⟨rfl, rfl, rfl, rfl, rfl⟩
    obtain ⟨e1, e2, e3, e4, e5⟩ := he
    rw [vle_iff]
    by_contra hlt
    rw [not_le, key_lt_iff, e1, e2, e3, e4, e5, compareParts_lt_iff _ _ hv.release hw hn hwn] at hlt
    simp only [lt_self_iff_false, true_and, and_false, or_false, false_or] at hlt
    obtain ⟨j, -, hj⟩ := hlt
    rw [h3 j] at hj
    split at hj
    · exact lt_irrefl _ hj
    · exact absurd (hp j) (not_le.2 hj)

example : (exVersion [1, 2, 3]).slice 2 = .ok (exVersion [1, 2]) ∧ (exVersion [1, 2, 3]).slice 5 = .ok (exVersion [1, 2, 3]) ∧
    (exVersion [1, 2, 3]).slice 0 = .error .valueError ∧ (exVersion [1, 2, 3]).slice (-1) = .ok (exVersion [1, 2]) := by decide +kernel

end Verif
