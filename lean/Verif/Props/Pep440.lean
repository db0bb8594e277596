import Verif.Proofs.Pep440
import Verif.Props.Versions
import Verif.Props.Parsing
/-!
# C59: PEP 440 strings
-/

namespace Verif

theorem canonical_normalize {v w : Version} (hv : v.Canonical) (h : v.normalize = .ok w) :
    w.Canonical ∧ w.NormalPhases ∧ w.normalize = .ok w ∧ w.local_ = v.local_ := by
  obtain ⟨h1, h2, h3, h4, h5⟩ := C14_normal_form v w hv.valid h
  rw [C14_normalize v hv.valid] at h
  cases h
  refine ⟨⟨h1, hv.epoch, hv.release, ?_, ?_, ?_, hv.local_⟩, ⟨h3, h4, h5⟩, h2, rfl⟩
  · intro t ht
    obtain ⟨s, hs, rfl⟩ := Option.map_eq_some_iff.1 ht
    exact hv.pre s hs
  · intro t ht
    obtain ⟨s, hs, rfl⟩ := Option.map_eq_some_iff.1 ht
    exact hv.post s hs
  · intro t ht
    obtain ⟨s, hs, rfl⟩ := Option.map_eq_some_iff.1 ht
    exact hv.dev s hs

theorem pep440_ok {v w : Version} (h : v.normalize = .ok w) : v.toPep440Str = .ok w.toShortStr := by
  simp [Version.toPep440Str, h, bind, Except.bind]

/-- `to_pep440_string` never fails, its result parses to the normalized version, and it is a canonical string of PEP 440
iff the letters in the local segment are a-z. -/
theorem C59_pep440 (v : Version) (hv : v.Canonical) :
    ∃ s w, v.toPep440Str = .ok s ∧ v.normalize = .ok w ∧ Version.parse s = .ok w ∧ (Pep440.Canonical s ↔ v.LowerLocal) := by
  have h := C14_normalize v hv.valid
  obtain ⟨h1, h2, -, -⟩ := canonical_normalize hv h
  refine ⟨_, _, pep440_ok h, h, parse_short h1, ?_⟩
  refine ⟨fun hs => ?_, fun hl => canonical_short h1 h2 hl⟩
  obtain ⟨w, w1, -, w3, w4⟩ := version_of_canonical hs
  rw [← C38_short_injective _ _ h1 w1 w4.symm] at w3
  exact w3

example : exFull.toPep440Str = .ok "1!2.0rc1.post2.dev3+ab.4".toList ∧ Pep440.Canonical "1!2.0rc1.post2.dev3+ab.4".toList := by
  refine ⟨by decide +kernel, ?_⟩
  obtain ⟨s, w, h1, -, -, h2⟩ := C59_pep440 exFull exFull_canonical
  have e : exFull.toPep440Str = .ok "1!2.0rc1.post2.dev3+ab.4".toList := by decide +kernel
  rw [e] at h1
  cases h1
  refine h2.2 ?_
  rintro _ ⟨⟩ s hs
  simp at hs
  subst hs
  unfold Pep440.IsLower
  decide

/-- The canonical strings of PEP 440 are exactly the strings that `to_pep440_string` gives for such versions; each of
them parses to a version that is already normalized and has this string. -/
theorem C59_strings (s : PyStr) : Pep440.Canonical s ↔ ∃ v : Version, v.Canonical ∧ v.LowerLocal ∧ v.toPep440Str = .ok s := by
  constructor
  · intro h
    obtain ⟨v, h1, h2, h3, rfl⟩ := version_of_canonical h
    exact ⟨v, h1, h3, pep440_ok (C14_unchanged v h1.valid h2.pre h2.post)⟩
  · rintro ⟨v, h1, h2, h3⟩
    obtain ⟨s', w, h4, -, -, h5⟩ := C59_pep440 v h1
    rw [h3] at h4
    cases h4
    exact h5.2 h2

example : (exVersion [1, 0] (some ⟨"beta".toList, 2⟩)).Canonical ∧ (exVersion [1, 0] (some ⟨"beta".toList, 2⟩)).toPep440Str = .ok "1.0b2".toList := by decide +kernel

/-- Canonical strings are fixed by parsing and printing. -/
theorem C59_fixed (s : PyStr) (h : Pep440.Canonical s) :
    ∃ v, Version.parse s = .ok v ∧ v.normalize = .ok v ∧ v.toShortStr = s ∧ v.toPep440Str = .ok s := by
  obtain ⟨v, h1, h2, h3, rfl⟩ := version_of_canonical h
  have h4 := C14_unchanged v h1.valid h2.pre h2.post
  exact ⟨v, parse_short h1, h4, rfl, pep440_ok h4⟩

example : Version.parse "1.0b2.post1".toList = .ok (exVersion [1, 0] (some ⟨"beta".toList, 2⟩) (some postTag)) ∧
    (exVersion [1, 0] (some ⟨"beta".toList, 2⟩) (some postTag)).toPep440Str = .ok "1.0b2.post1".toList := by decide +kernel

/-- Parsing and printing twice is the same as once. -/
theorem C59_idempotent (t s : PyStr) (v : Version) (h : Version.parse t = .ok v) (hs : v.toPep440Str = .ok s) :
    ∃ w, Version.parse s = .ok w ∧ w.toPep440Str = .ok s := by
  have hv := parse_canonical h
  have hn := C14_normalize v hv.valid
  obtain ⟨h1, -, h3, -⟩ := canonical_normalize hv hn
  rw [pep440_ok hn] at hs
  cases hs
  exact ⟨_, parse_short h1, pep440_ok h3⟩

example : ∃ v w, Version.parse "v1!02.0_c-1-4.dev".toList = .ok v ∧ v.toPep440Str = .ok "1!2.0rc1.post4.dev0".toList ∧
    Version.parse "1!2.0rc1.post4.dev0".toList = .ok w ∧ v ≠ w ∧ w.toPep440Str = .ok "1!2.0rc1.post4.dev0".toList := by
  refine ⟨{ epoch := ⟨1⟩, release := ⟨[2, 0]⟩, pre := some ⟨"candidate".toList, 1⟩, post := some ⟨"post".toList, 4⟩, dev := some ⟨"dev".toList, 0⟩ },
    { epoch := ⟨1⟩, release := ⟨[2, 0]⟩, pre := some ⟨"rc".toList, 1⟩, post := some ⟨"post".toList, 4⟩, dev := some ⟨"dev".toList, 0⟩ }, ?_⟩
  decide +kernel

/-- Two versions have the same string iff they have the same normal form. -/
theorem C59_injective (v w : Version) (hv : v.Canonical) (hw : w.Canonical) :
    v.toPep440Str = w.toPep440Str ↔ v.normalize = w.normalize := by
  have h1 := C14_normalize v hv.valid
  have h2 := C14_normalize w hw.valid
  rw [pep440_ok h1, pep440_ok h2]
  constructor
  · intro e
    injection e with e
    rw [h1, h2, C38_short_injective _ _ (canonical_normalize hv h1).1 (canonical_normalize hw h2).1 e]
  · intro e
    rw [h1, h2] at e
    injection e with e
    rw [e]

example : (exVersion [1] (some ⟨"candidate".toList, 1⟩)).toPep440Str = (exVersion [1] (some rcTag)).toPep440Str ∧
    (exVersion [1] (some ⟨"candidate".toList, 1⟩)).normalize = (exVersion [1] (some rcTag)).normalize := by decide +kernel

/-- Violation: letters of the local segment are not put in lower case, so the result need not be canonical, and
versions that PEP 440 identifies have different strings (and are different). -/
theorem C59_violation : ∃ v w : Version, Version.parse "1+AB".toList = .ok v ∧ v.toPep440Str = .ok "1+AB".toList ∧
    ¬ Pep440.Canonical "1+AB".toList ∧ Version.parse "1+ab".toList = .ok w ∧ ¬ v ==ₚ w := by
  let v : Version := { release := ⟨[1]⟩, local_ := some ⟨[.str "AB".toList]⟩ }
  have h1 : Version.parse "1+AB".toList = .ok v := by decide +kernel
  have h2 : v.toPep440Str = .ok "1+AB".toList := by decide +kernel
  refine ⟨v, { release := ⟨[1]⟩, local_ := some ⟨[.str "ab".toList]⟩ }, h1, h2, ?_, by decide +kernel, by decide +kernel⟩
  obtain ⟨s, w, e1, -, -, e2⟩ := C59_pep440 v (parse_canonical h1)
  rw [h2] at e1
  cases e1
  rw [e2]
  intro h
  have := h _ rfl "AB".toList (by simp) 'A' (by simp)
  revert this
  unfold Pep440.IsLower
  decide

example : (exVersion [1] (l := some ⟨[.str "AB".toList]⟩)).toPep440Str = .ok "1+AB".toList := by decide +kernel

end Verif
