import Verif.Spec.Decide
import Verif.Props.Order
import Verif.Props.Pep440
/-!
# C80: the order of PEP 440 proper
-/

namespace Verif

open Pep440 (lower lowerPart lowerLocal)

theorem lower_of_lower {c : Char} (h : Pep440.IsLower c ∨ IsDigit c) : lower c = c := by
  unfold lower
  rw [if_neg]
  rintro ⟨h1, h2⟩
  rcases h with ⟨h, -⟩ | ⟨-, h⟩
  · exact absurd (Char.le_trans h h2) (by decide)
  · exact absurd (Char.le_trans h1 h) (by decide)

theorem lowerLocal_of_lower {v : Version} (h : v.LowerLocal) : v.local_.map lowerLocal = v.local_ := by
  cases hl : v.local_ with
  | none => rfl
  | some l =>
    obtain ⟨parts⟩ := l
    have : parts.map lowerPart = parts := by
      conv_rhs => rw [← List.map_id parts]
      refine List.map_congr_left fun x hx => ?_
      cases x with
      | int n => rfl
      | str s =>
        have hs := h _ hl s hx
        show LocalPart.str _ = LocalPart.str s
        congr 1
        conv_rhs => rw [← List.map_id s]
        exact List.map_congr_left fun c hc => lower_of_lower (hs c hc)
    simp [lowerLocal, this]

/-- Ranks compared by different places, of which one is finer. -/
theorem rank_place {a b a' b' : Rank} (h2 : a.2 = a'.2) (h3 : b.2 = b'.2)
    (hlt : a.1 < b.1 ↔ a'.1 < b'.1) (heq : a.1 = b.1 ↔ a'.1 = b'.1) : (a.Below b ↔ a'.Below b') ∧ (a = b ↔ a' = b') := by
  obtain ⟨a, m⟩ := a; obtain ⟨b, n⟩ := b; obtain ⟨a', m'⟩ := a'; obtain ⟨b', n'⟩ := b'
  simp only at h2 h3 hlt heq
  subst h2 h3
  simp only [Rank.Below, hlt, heq, Prod.mk.injEq, and_self]

theorem places : ∀ s ∈ TagClass.pre.phases.map String.toList, ∀ t ∈ TagClass.pre.phases.map String.toList,
    ¬ (s ≠ t ∧ Pep440.prePlace s = Pep440.prePlace t) →
    (place ["alpha", "beta", "candidate", "preview", "rc"] s < place ["alpha", "beta", "candidate", "preview", "rc"] t ↔
      Pep440.prePlace s < Pep440.prePlace t) ∧
    (place ["alpha", "beta", "candidate", "preview", "rc"] s = place ["alpha", "beta", "candidate", "preview", "rc"] t ↔
      Pep440.prePlace s = Pep440.prePlace t) := by decide +kernel

theorem place_bounds : ∀ s ∈ TagClass.pre.phases.map String.toList,
    place ["alpha", "beta", "candidate", "preview", "rc"] s < 5 ∧ 0 < Pep440.prePlace s ∧ Pep440.prePlace s < 4 := by decide +kernel

theorem preRank_pep (a b : Version) (ha : a.Valid) (hb : b.Valid) (h : ¬ Pep440.MixedSpelling a b) :
    (a.preRank.Below b.preRank ↔ (Pep440.preRank a).Below (Pep440.preRank b)) ∧
      (a.preRank = b.preRank ↔ Pep440.preRank a = Pep440.preRank b) := by
  have key : ∀ v : Version, v.Valid →
      (∃ t, v.pre = some t ∧ t.phase ∈ TagClass.pre.phases.map String.toList ∧
        v.preRank = (1 + place ["alpha", "beta", "candidate", "preview", "rc"] t.phase, t.value) ∧
        Pep440.preRank v = (Pep440.prePlace t.phase, t.value)) ∨
      (v.preRank = (0, 0) ∧ Pep440.preRank v = (0, 0)) ∨ (v.preRank = (6, 0) ∧ Pep440.preRank v = (4, 0)) := by
    intro v hv
    unfold Version.preRank Pep440.preRank
    cases hp : v.pre with
    | some t => exact .inl ⟨t, rfl, valid_mem (hv.pre _ hp), rfl, rfl⟩
    | none => cases v.post <;> cases v.dev <;> simp
  apply rank_place
  · rcases key a ha with ⟨t, -, -, e, e'⟩ | ⟨e, e'⟩ | ⟨e, e'⟩ <;> rw [e, e']
  · rcases key b hb with ⟨t, -, -, e, e'⟩ | ⟨e, e'⟩ | ⟨e, e'⟩ <;> rw [e, e']
  · rcases key a ha with ⟨s, hs, ms, e, e'⟩ | ⟨e, e'⟩ | ⟨e, e'⟩ <;> rcases key b hb with ⟨t, ht, mt, f, f'⟩ | ⟨f, f'⟩ | ⟨f, f'⟩ <;>
      rw [e, e', f, f']
    · have := (places _ ms _ mt (fun g => h (.inl ⟨s, t, hs, ht, g⟩))).1
      simp only; omega
    all_goals first | (have := place_bounds _ ms; simp only; omega) | (have := place_bounds _ mt; simp only; omega) | simp
  · rcases key a ha with ⟨s, hs, ms, e, e'⟩ | ⟨e, e'⟩ | ⟨e, e'⟩ <;> rcases key b hb with ⟨t, ht, mt, f, f'⟩ | ⟨f, f'⟩ | ⟨f, f'⟩ <;>
      rw [e, e', f, f']
    · have := (places _ ms _ mt (fun g => h (.inl ⟨s, t, hs, ht, g⟩))).2
      simp only; omega
    all_goals first | (have := place_bounds _ ms; simp only; omega) | (have := place_bounds _ mt; simp only; omega) | simp

theorem postRank_pep (a b : Version) (h : ¬ Pep440.MixedSpelling a b) :
    (a.postRank.Below b.postRank ↔ (Pep440.postRank a).Below (Pep440.postRank b)) ∧
      (a.postRank = b.postRank ↔ Pep440.postRank a = Pep440.postRank b) := by
  have bound : ∀ s, place ["post", "rev"] s + 1 ≠ 0 := fun s => by omega
  have hph : ∀ s t, a.post = some s → b.post = some t → s.phase = t.phase := by
    intro s t hs ht
    by_contra hne
    exact h (.inr ⟨s, t, hs, ht, hne⟩)
  unfold Version.postRank Pep440.postRank
  cases hp : a.post <;> cases hq : b.post <;> simp only [Rank.Below, Prod.mk.injEq]
  · exact ⟨by simp, by simp⟩
  · exact ⟨by constructor <;> intro _ <;> omega, by constructor <;> intro h <;> omega⟩
  · exact ⟨by constructor <;> intro _ <;> omega, by constructor <;> intro h <;> omega⟩
  · rename_i s t
    rw [hph s t hp hq]
    simp

/-- C80. `a < b` is the order of PEP 440, unless the versions spell the same phase in different ways. -/
theorem C80_order (a b : Version) (ha : a.Valid) (hb : b.Valid) (hna : a.release.NonNeg) (hnb : b.release.NonNeg)
    (la : a.LowerLocal) (lb : b.LowerLocal) (h : ¬ Pep440.MixedSpelling a b) : a <ₚ b ↔ Pep440.Before a b := by
  rw [C60_order a b ha hb hna hnb]
  unfold Version.Before Pep440.Before
  rw [(preRank_pep a b ha hb h).1, (preRank_pep a b ha hb h).2, (postRank_pep a b h).1, (postRank_pep a b h).2,
    lowerLocal_of_lower la, lowerLocal_of_lower lb]

example : ¬ Pep440.MixedSpelling (exVersion [1, 0] (some ⟨"candidate".toList, 2⟩)) (exVersion [1, 0] (some ⟨"candidate".toList, 10⟩)) ∧
    exVersion [1, 0] (some ⟨"candidate".toList, 2⟩) <ₚ exVersion [1, 0] (some ⟨"candidate".toList, 10⟩) ∧
    ¬ Pep440.MixedSpelling (exVersion [1, 0] (some ⟨"beta".toList, 7⟩)) (exVersion [1, 0] (some ⟨"preview".toList, 1⟩) (some postTag)) ∧
    exVersion [1, 0] (some ⟨"beta".toList, 7⟩) <ₚ exVersion [1, 0] (some ⟨"preview".toList, 1⟩) (some postTag) := by
  refine ⟨?_, by decide +kernel, ?_, by decide +kernel⟩
  · rintro (⟨s, t, hs, ht, h, -⟩ | ⟨s, t, hs, -, -⟩)
    · cases hs; cases ht; exact h rfl
    · cases hs
  · rintro (⟨s, t, hs, ht, -, h⟩ | ⟨s, t, hs, -, -⟩)
    · cases hs; cases ht; revert h; decide +kernel
    · cases hs

theorem prePlace_normal (p : PyStr) : p ∈ TagClass.pre.phases.map String.toList → Pep440.prePlace (normalPhase p) = Pep440.prePlace p := by
  revert p; decide +kernel

theorem ranks_normalize (v w : Version) (hv : v.Valid) (h : v.normalize = .ok w) :
    w.epoch = v.epoch ∧ w.release = v.release ∧ Pep440.preRank w = Pep440.preRank v ∧ Pep440.postRank w = Pep440.postRank v ∧
      w.devRank = v.devRank ∧ w.local_ = v.local_ := by
  rw [C14_normalize v hv] at h
  cases h
  refine ⟨rfl, rfl, ?_, ?_, ?_, rfl⟩
  · unfold Pep440.preRank
    cases hp : v.pre with
    | some t => simp [Tag.normalized, prePlace_normal _ (valid_mem (hv.pre _ hp))]
    | none => cases v.post <;> cases v.dev <;> rfl
  · unfold Pep440.postRank
    cases v.post <;> rfl
  · unfold Version.devRank
    cases v.dev <;> rfl

theorem not_mixed (a b : Version) (ha : a.NormalPhases) (hb : b.NormalPhases) : ¬ Pep440.MixedSpelling a b := by
  have aux : ∀ s ∈ ["alpha".toList, "beta".toList, "rc".toList], ∀ t ∈ ["alpha".toList, "beta".toList, "rc".toList],
      Pep440.prePlace s = Pep440.prePlace t → s = t := by decide +kernel
  rintro (⟨s, t, hs, ht, hne, he⟩ | ⟨s, t, hs, ht, hne⟩)
  · exact hne (aux _ (ha.pre s hs) _ (hb.pre t ht) he)
  · exact hne ((ha.post s hs).trans (hb.post t ht).symm)

/-- C80. After `normalize`, `<` is the order of PEP 440 for all versions, and `==` its equality. -/
theorem C80_normalize (a b a' b' : Version) (ha : a.Valid) (hb : b.Valid) (hna : a.release.NonNeg) (hnb : b.release.NonNeg)
    (la : a.LowerLocal) (lb : b.LowerLocal) (ea : a.normalize = .ok a') (eb : b.normalize = .ok b') :
    (a' <ₚ b' ↔ Pep440.Before a b) ∧ (a' ==ₚ b' ↔ ¬ Pep440.Before a b ∧ ¬ Pep440.Before b a) := by
  obtain ⟨va, -, a1, a2, a3⟩ := C14_normal_form a a' ha ea
  obtain ⟨vb, -, b1, b2, b3⟩ := C14_normal_form b b' hb eb
  obtain ⟨f1, f2, f3, f4, f5, f6⟩ := ranks_normalize a a' ha ea
  obtain ⟨g1, g2, g3, g4, g5, g6⟩ := ranks_normalize b b' hb eb
  have la' : a'.LowerLocal := by unfold Version.LowerLocal; rw [f6]; exact la
  have lb' : b'.LowerLocal := by unfold Version.LowerLocal; rw [g6]; exact lb
  have na' : a'.release.NonNeg := by rw [f2]; exact hna
  have nb' : b'.release.NonNeg := by rw [g2]; exact hnb
  have e1 : a' <ₚ b' ↔ Pep440.Before a b := by
    rw [C80_order a' b' va vb na' nb' la' lb' (not_mixed _ _ ⟨a1, a2, a3⟩ ⟨b1, b2, b3⟩)]
    unfold Pep440.Before
    rw [f1, f2, f3, f4, f5, f6, g1, g2, g3, g4, g5, g6]
  have e2 : b' <ₚ a' ↔ Pep440.Before b a := by
    rw [C80_order b' a' vb va nb' na' lb' la' (not_mixed _ _ ⟨b1, b2, b3⟩ ⟨a1, a2, a3⟩)]
    unfold Pep440.Before
    rw [f1, f2, f3, f4, f5, f6, g1, g2, g3, g4, g5, g6]
  refine ⟨e1, ?_⟩
  rw [← e1, ← e2]
  have hgt : a' >ₚ b' ↔ b' <ₚ a' := by simp only [vlt_iff, vgt_iff]
  rcases C01_trichotomy a' b' with ⟨h1, h2, h3⟩ | ⟨h1, h2, h3⟩ | ⟨h1, h2, h3⟩ <;> rw [hgt] at h3 <;> simp [h1, h2, h3]

example : (exVersion [1, 0] (some ⟨"candidate".toList, 2⟩)).normalize = .ok (exVersion [1, 0] (some ⟨"rc".toList, 2⟩)) ∧
    (exVersion [1, 0] (some ⟨"preview".toList, 1⟩)).normalize = .ok (exVersion [1, 0] (some ⟨"rc".toList, 1⟩)) ∧
    exVersion [1, 0] (some ⟨"rc".toList, 1⟩) <ₚ exVersion [1, 0] (some ⟨"rc".toList, 2⟩) ∧
    Pep440.Before (exVersion [1, 0] (some ⟨"preview".toList, 1⟩)) (exVersion [1, 0] (some ⟨"candidate".toList, 2⟩)) := by
  decide +kernel

/-- C80, the violation. Without `normalize`, `cN` comes before every preview and every `rcM`, and the preview before every
`rcM`, whatever their numbers, and a `postN` before every `revM`; PEP 440 compares the numbers. -/
theorem C80_violation (a b : Version) (ha : a.Valid) (hb : b.Valid) (hna : a.release.NonNeg) (hnb : b.release.NonNeg)
    (he : a.epoch = b.epoch) (hr : a.release = b.release) :
    (∀ s t, a.pre = some s → b.pre = some t →
      (s.phase, t.phase) ∈ [("candidate".toList, "preview".toList), ("candidate".toList, "rc".toList), ("preview".toList, "rc".toList)] →
      a <ₚ b ∧ (t.value < s.value → Pep440.Before b a)) ∧
    (∀ s t, a.pre = b.pre → a.post = some s → b.post = some t → s.phase = "post".toList → t.phase = "rev".toList →
      a <ₚ b ∧ (t.value < s.value → Pep440.Before b a)) := by
  refine ⟨fun s t hs ht hm => ?_, fun s t hp hs ht h1 h2 => ?_⟩
  · have aux : ∀ x ∈ [("candidate".toList, "preview".toList), ("candidate".toList, "rc".toList), ("preview".toList, "rc".toList)],
        place ["alpha", "beta", "candidate", "preview", "rc"] x.1 < place ["alpha", "beta", "candidate", "preview", "rc"] x.2 ∧
        Pep440.prePlace x.1 = Pep440.prePlace x.2 := by decide +kernel
    obtain ⟨h1, h2⟩ := aux _ hm
    refine ⟨?_, fun hlt => ?_⟩
    · rw [C60_order a b ha hb hna hnb]
      refine .inr ⟨by rw [he], .inr ⟨fun i => by rw [hr], .inl (.inl ?_)⟩⟩
      simp only [Version.preRank, hs, ht]
      simp only at h1; omega
    · refine .inr ⟨by rw [he], .inr ⟨fun i => by rw [hr], .inl (.inr ?_)⟩⟩
      simp only [Pep440.preRank, hs, ht]
      exact ⟨h2.symm, hlt⟩
  · have e : a.preRank = b.preRank := by unfold Version.preRank; rw [hp, hs, ht]; cases b.pre <;> rfl
    have e' : Pep440.preRank b = Pep440.preRank a := by unfold Pep440.preRank; rw [hp, hs, ht]; cases b.pre <;> rfl
    refine ⟨?_, fun hlt => ?_⟩
    · rw [C60_order a b ha hb hna hnb]
      refine .inr ⟨by rw [he], .inr ⟨fun i => by rw [hr], .inr ⟨e, .inl (.inl ?_)⟩⟩⟩
      simp only [Version.postRank, hs, ht, h1, h2]
      decide
    · refine .inr ⟨by rw [he], .inr ⟨fun i => by rw [hr], .inr ⟨e', .inl (.inr ?_)⟩⟩⟩
      simp only [Pep440.postRank, hs, ht]
      exact ⟨trivial, hlt⟩

example : ∃ a b, Version.parse "1.0c2".toList = .ok a ∧ Version.parse "1.0rc1".toList = .ok b ∧ a <ₚ b ∧ Pep440.Before b a := by
  refine ⟨exVersion [1, 0] (some ⟨"candidate".toList, 2⟩), exVersion [1, 0] (some ⟨"rc".toList, 1⟩), by decide +kernel⟩

/-- C80, the violation for local versions. `1.0+A` and `1.0+a` are the same to PEP 440; here they differ, and `+B` comes
before `+a`. `normalize` does not help. -/
theorem C80_local_violation : ∃ a b c, Version.parse "1.0+A".toList = .ok a ∧ Version.parse "1.0+a".toList = .ok b ∧
    Version.parse "1.0+B".toList = .ok c ∧ a.normalize = .ok a ∧ b.normalize = .ok b ∧ c.normalize = .ok c ∧
    ¬ Pep440.Before a b ∧ ¬ Pep440.Before b a ∧ ¬ a ==ₚ b ∧ c <ₚ b ∧ Pep440.Before b c := by
  refine ⟨exVersion [1, 0] none none none (some ⟨[.str "A".toList]⟩), exVersion [1, 0] none none none (some ⟨[.str "a".toList]⟩),
    exVersion [1, 0] none none none (some ⟨[.str "B".toList]⟩), by decide +kernel⟩

end Verif
