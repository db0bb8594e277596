import Verif.Model.Accessors
import Verif.Proofs.ParsedSets
import Verif.Props.Compat
/-!
# C77, C78: named parts; how bumps relate to each other
-/

namespace Verif

/-- C77. `major`, `minor`, `micro` and `patch` read the first three parts, missing ones as 0; `extra` is what follows them. -/
theorem C77_read (v : Version) :
    v.major = .ok (v.release.part 0) ∧ v.minor = .ok (v.release.part 1) ∧ v.micro = .ok (v.release.part 2) ∧ v.patch = .ok (v.release.part 2) ∧
      (∀ j, v.extra.getD j 0 = v.release.part (j + 3)) ∧ v.extra.length = v.precision - 3 := by
  have key : ∀ i : Nat, v.release.getAt i 0 = .ok (v.release.part i) := by
    intro i
    rw [getAt_nat]
    split
    · rfl
    · rename_i h
      unfold Release.part
      rw [List.getD_eq_getElem?_getD, List.getElem?_eq_none (by simpa [Release.precision] using h)]
      rfl
  refine ⟨key 0, key 1, key 2, key 2, fun j => ?_, ?_⟩
  · simp [Version.extra, Release.extra, Release.part, List.getD_eq_getElem?_getD, Nat.add_comm]
  · simp [Version.extra, Release.extra, Version.precision, Release.precision]

example : (exVersion [1, 2, 3, 4, 5]).minor = .ok 2 ∧ (exVersion [1]).micro = .ok 0 ∧ (exVersion [1, 2, 3, 4, 5]).extra = [4, 5] ∧
    (exVersion [1, 2, 3, 4, 5]).precision = 5 := by decide +kernel

/-- C77. `has_major`, `has_minor`, `has_micro`, `has_patch` and `has_extra` tell how many parts there are. -/
theorem C77_has (v : Version) :
    (v.hasMajor = true ↔ 0 < v.precision) ∧ (v.hasMinor = true ↔ 1 < v.precision) ∧ (v.hasMicro = true ↔ 2 < v.precision) ∧
      v.hasPatch = v.hasMicro ∧ (v.hasExtra = true ↔ v.extra ≠ []) := by
  have key : ∀ i : Nat, v.release.hasAt i = true ↔ i < v.precision := by
    intro i; simp [Release.hasAt, Version.precision]
  refine ⟨key 0, key 1, key 2, rfl, ?_⟩
  rw [show v.hasExtra = v.release.hasAt (3 : Nat) from rfl, key, ne_eq, ← List.length_eq_zero_iff, (C77_read v).2.2.2.2.2]
  omega

example : (exVersion [1, 2]).hasMinor = true ∧ (exVersion [1, 2]).hasMicro = false ∧ (exVersion [1, 2, 3]).hasExtra = false ∧
    (exVersion [1, 2, 3, 0]).hasExtra = true := by decide +kernel

/-- C77. `set_major`, `set_minor`, `set_micro` and `set_patch` write one of the first three parts and nothing else: the other
parts, the extra parts, the other segments stay, and missing parts before it become 0. -/
theorem C77_set (v : Version) (hv : v.Valid) (x : Int) :
    ∀ i : Nat, ∀ f, (i, f) ∈ [(0, Version.setMajor), (1, Version.setMinor), (2, Version.setMicro), (2, Version.setPatch)] →
      ∃ w, f v x = .ok w ∧ w.Valid ∧ (∀ j, w.release.part j = if j = i then x else v.release.part j) ∧ w.extra = v.extra ∧
        w.precision = max v.precision (i + 1) ∧ w = { v with release := w.release } := by
  have key : ∀ i : Nat, i < 3 → ∃ w, v.setAt i x = .ok w ∧ w.Valid ∧ (∀ j, w.release.part j = if j = i then x else v.release.part j) ∧ w.extra = v.extra ∧
        w.precision = max v.precision (i + 1) ∧ w = { v with release := w.release } := by
    intro i hi
    obtain ⟨w, h1, h2, h3, h4⟩ := C06_set_at v hv i x
    refine ⟨w, h1, ?_, h2, ?_, h3, h4⟩
    · have : w.release.parts ≠ [] := by
        intro h
        have : w.precision = 0 := by simp [Version.precision, Release.precision, h]
        omega
      rw [h4]
      exact ⟨this, hv.2, hv.3, hv.4, hv.5⟩
    · have e1 := (C77_read w).2.2.2.2
      have e2 := (C77_read v).2.2.2.2
      apply List.ext_getElem
      · rw [e1.2, e2.2, h3]; omega
      · intro j j1 j2
        have a1 := e1.1 j
        have a2 := e2.1 j
        rw [h2, if_neg (by omega), ← a2] at a1
        simpa [List.getD_eq_getElem?_getD, j1, j2] using a1
  intro i f h
  simp only [List.mem_cons, Prod.mk.injEq, List.not_mem_nil, or_false] at h
  rcases h with ⟨rfl, rfl⟩ | ⟨rfl, rfl⟩ | ⟨rfl, rfl⟩ | ⟨rfl, rfl⟩
  · exact key 0 (by omega)
  · exact key 1 (by omega)
  · exact key 2 (by omega)
  · exact key 2 (by omega)

example : (exVersion [1]).Valid ∧ (exVersion [1]).setMinor 4 = .ok (exVersion [1, 4]) ∧
    (exVersion [1, 2, 3] (some rcTag)).setMinor 4 = .ok (exVersion [1, 4, 3] (some rcTag)) := by decide +kernel

/-- C77. Writing the same part twice, the last one counts; writing different parts, the order does not matter; writing a
greater number makes the version greater. -/
theorem C77_laws (v a b : Version) (hv : v.Valid) (i j : Nat) (x y : Int) (ha : v.setAt i x = .ok a) (hb : v.setAt j y = .ok b) :
    (i = j → a.setAt j y = .ok b) ∧ (i ≠ j → ∃ c, a.setAt j y = .ok c ∧ b.setAt i x = .ok c) ∧
      (i = j → v.release.NonNeg → 0 ≤ x → x < y → a <ₚ b) := by
  have valid : ∀ {k : Nat} {z : Int} {w : Version}, v.setAt k z = .ok w → w.Valid := by
    intro k z w h
    obtain ⟨w', h1, -, h3, h4⟩ := C06_set_at v hv k z
    rw [h1] at h; cases h
    have : w.release.parts ≠ [] := by
      intro h
      have : w.precision = 0 := by simp [Version.precision, Release.precision, h]
      omega
    rw [h4]
    exact ⟨this, hv.2, hv.3, hv.4, hv.5⟩
  obtain ⟨a', a1, a2, a3, a4⟩ := C06_set_at v hv i x
  rw [a1] at ha; cases ha
  obtain ⟨b', b1, b2, b3, b4⟩ := C06_set_at v hv j y
  rw [b1] at hb; cases hb
  obtain ⟨c, c1, c2, c3, c4⟩ := C06_set_at a (valid a1) j y
  obtain ⟨d, d1, d2, d3, d4⟩ := C06_set_at b (valid b1) i x
  refine ⟨?_, ?_, ?_⟩
  · rintro rfl
    rw [c1]
    have : c.release = b.release := release_ext _ _ (by change c.precision = b.precision; omega) fun k => by
      rw [c2, b2, a2]; split <;> rfl
    rw [c4, this, b4, a4]
  · intro hij
    refine ⟨c, c1, ?_⟩
    rw [d1]
    have : d.release = c.release := release_ext _ _ (by change d.precision = c.precision; omega) fun k => by
      rw [c2, d2, a2, b2]
      split <;> split <;> first | rfl | omega
    rw [c4, d4, this, b4, a4]
  · rintro rfl hn hx hxy
    have na : a.release.NonNeg := nonneg_of_part fun k => by
      rw [a2]; split
      · exact hx
      · exact part_nonneg hn k
    rw [vlt_iff, key_lt_iff]
    refine .inr ⟨by rw [a4, b4], .inl (compareParts_lt_of_below _ _ (valid a1).release (valid b1).release na ⟨i, fun k hk => ?_, ?_⟩)⟩
    · rw [a2, b2, if_neg (by omega), if_neg (by omega)]
    · rw [a2, b2, if_pos rfl, if_pos rfl]; exact hxy

example : (exVersion [1]).setMicro 5 = .ok (exVersion [1, 0, 5]) ∧ (exVersion [1, 2, 3, 4] (some rcTag)).setMajor 7 = .ok (exVersion [7, 2, 3, 4] (some rcTag)) ∧
    (exVersion [1, 2, 3, 4]).extra = [4] := by decide +kernel

/-- C78. Bumping further to the right gives less: the next micro version comes before the next minor version, and that before
the next major version, if the version is stable; an unstable version has the same next version everywhere. -/
theorem C78_chain (v : Version) (hv : v.Sane) (i j : Nat) (h : i < j) :
    ∃ a b, v.nextAt i = .ok a ∧ v.nextAt j = .ok b ∧ ((v.pre = none ∧ v.dev = none) → b <ₚ a) ∧ (¬ (v.pre = none ∧ v.dev = none) → b = a) := by
  cases hs : v.isStable with
  | true =>
    obtain ⟨a, a1, a2⟩ := nextAt_stable hv.valid hs i
    obtain ⟨b, b1, b2⟩ := nextAt_stable hv.valid hs j
    refine ⟨a, b, a1, b1, fun _ => ?_, fun h => absurd ((stable_iff v).1 hs) h⟩
    rw [vlt_iff, key_lt_iff]
    refine .inr ⟨by rw [a2.numbers.1, b2.numbers.1], .inl (compareParts_lt_of_below _ _ b2.valid.release a2.valid.release (b2.nonNeg hv.nonNeg)
      ⟨i, fun k hk => ?_, ?_⟩)⟩
    · rw [a2.numbers.2, b2.numbers.2, if_pos hk, if_pos (by omega)]
    · rw [b2.numbers.2, a2.numbers.2, if_pos h, if_neg (by omega), if_pos rfl]
      omega
  | false =>
    have e : ∀ k : Nat, v.nextAt k = .ok (v.withoutTagsAndLocal.setRelease v.release) := by
      intro k; unfold Version.nextAt; rw [hs]; rfl
    refine ⟨_, _, e i, e j, fun h => ?_, fun _ => rfl⟩
    rw [(stable_iff v).2 h] at hs
    cases hs

example : (exVersion [1, 2, 3]).nextAt 1 = .ok (exVersion [1, 3, 0]) ∧ (exVersion [1, 2, 3]).nextAt 0 = .ok (exVersion [2, 0, 0]) ∧
    exVersion [1, 3, 0] <ₚ exVersion [2, 0, 0] ∧ (exVersion [1, 2] (some rcTag)).nextAt 0 = .ok (exVersion [1, 2]) ∧
    (exVersion [1, 2] (some rcTag)).nextAt 1 = .ok (exVersion [1, 2]) := by decide +kernel

/-- C78. Bumping again further to the left makes the first bump invisible. -/
theorem C78_absorb (v : Version) (hv : v.Sane) (hs : v.pre = none ∧ v.dev = none) (i j : Nat) (h : i < j) :
    ∃ a b c, v.nextAt j = .ok b ∧ b.nextAt i = .ok a ∧ v.nextAt i = .ok c ∧ a ==ₚ c := by
  obtain ⟨b, b1, b2⟩ := nextAt_stable hv.valid ((stable_iff v).2 hs) j
  obtain ⟨c, c1, c2⟩ := nextAt_stable hv.valid ((stable_iff v).2 hs) i
  obtain ⟨a, a1, a2⟩ := nextAt_stable b2.valid ((stable_iff b).2 ⟨b2.final.1, b2.final.2.2.1⟩) i
  refine ⟨a, b, c, b1, a1, c1, ?_⟩
  rw [veq_iff]
  refine le_antisymm (Bumped.le_of_prefix c2 a2 ⟨b2.numbers.1, fun k hk => ?_⟩ (le_refl _) hv.nonNeg (b2.nonNeg hv.nonNeg))
    (Bumped.le_of_prefix a2 c2 ⟨b2.numbers.1.symm, fun k hk => ?_⟩ (le_refl _) (b2.nonNeg hv.nonNeg) hv.nonNeg)
  · rw [b2.numbers.2, if_pos (by omega)]
  · rw [b2.numbers.2, if_pos (by omega)]

example : (exVersion [1]).nextAt 2 = .ok (exVersion [1, 0, 1]) ∧ (exVersion [1, 0, 1]).nextAt 0 = .ok (exVersion [2, 0, 0]) ∧
    (exVersion [1]).nextAt 0 = .ok (exVersion [2]) ∧ exVersion [2, 0, 0] ==ₚ exVersion [2] := by decide +kernel

/-- C78. `next_breaking` of a stable version comes no later than its next major version. -/
theorem C78_breaking (v : Version) (hv : v.Sane) (hs : v.pre = none ∧ v.dev = none) :
    ∃ a b, v.nextBreaking = .ok a ∧ v.nextMajor = .ok b ∧ a ≤ₚ b := by
  obtain ⟨a, a1, a2, -⟩ := caret_spec hv.valid
  obtain ⟨k, -, ak⟩ := a2 ((stable_iff v).2 hs)
  obtain ⟨b, b1, b2⟩ := nextAt_stable hv.valid ((stable_iff v).2 hs) 0
  exact ⟨a, b, a1, b1, (vle_iff _ _).2 (b2.le_of_prefix ak ⟨rfl, fun _ _ => rfl⟩ (by omega) hv.nonNeg hv.nonNeg)⟩

/-- 1.2.4 < 1.3.0 < 2.0.0; the next major version of 1.3.0 is 2.0.0, too. -/
example : (exVersion [1, 2, 3]).nextAt 2 = .ok (exVersion [1, 2, 4]) ∧ (exVersion [1, 2, 3]).nextAt 1 = .ok (exVersion [1, 3, 0]) ∧
    (exVersion [1, 2, 3]).nextAt 0 = .ok (exVersion [2, 0, 0]) ∧ (exVersion [1, 3, 0]).nextAt 0 = .ok (exVersion [2, 0, 0]) := by decide +kernel

/-- C78. Of an unstable version `next_breaking` comes after the next major version, unless the major number is 0; then they are
the same. -/
theorem C78_breaking_unstable (v : Version) (hv : v.Sane) (hu : ¬ (v.pre = none ∧ v.dev = none)) :
    ∃ a b, v.nextBreaking = .ok a ∧ v.nextMajor = .ok b ∧ (v.release.part 0 ≠ 0 → b <ₚ a) ∧ (v.release.part 0 = 0 → a = b) := by
  have hs : v.isStable = false := by
    rw [Bool.eq_false_iff]; exact fun h => hu ((stable_iff v).1 h)
  obtain ⟨a, a1, -, a2, a3⟩ := caret_spec hv.valid
  have e : v.nextMajor = .ok (v.withoutTagsAndLocal.setRelease v.release) := by
    unfold Version.nextMajor; rw [hs]; rfl
  refine ⟨a, _, a1, e, fun h => ?_, fun h => ?_⟩
  · have b := a2 hs h
    rw [vlt_iff, key_lt_iff]
    refine .inr ⟨by rw [b.numbers.1]; rfl, .inl (compareParts_lt_of_below _ _ hv.valid.release b.valid.release hv.nonNeg ⟨0, fun k hk => absurd hk (by omega), ?_⟩)⟩
    rw [b.numbers.2, if_neg (by omega), if_pos rfl]
    show v.release.part 0 < _
    omega
  · have b := a3 hs h
    obtain ⟨e1, r1, p1, q1, d1, l1⟩ := a
    obtain ⟨b1, b2, b3, b4⟩ := b.final
    have be := b.epoch
    have br := b.release
    simp only at *
    subst b1 b2 b3 b4 be br
    rfl

/-- Stability matters for `next_breaking`: on 1.0rc1 it is 2.0, and the next major version is 1.0. -/
example : (exVersion [1, 0] (some rcTag)).nextBreaking = .ok (exVersion [2, 0]) ∧ (exVersion [1, 0] (some rcTag)).nextMajor = .ok (exVersion [1, 0]) := by
  decide +kernel

end Verif
