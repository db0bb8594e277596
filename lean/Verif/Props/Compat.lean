import Verif.Props.Pep440Clauses
/-!
# C73, C74: compatibility is transitive, bumping is monotone
-/

namespace Verif

variable {a b c v w : Version}

/-- Bumping further to the right gives less. -/
theorem Bumped.le_of_prefix {i k : Nat} {wa wb : Version} (ha : Bumped i a wa) (hb : Bumped k b wb) (hp : b.SamePrefix (i + 1) a)
    (hik : i ≤ k) (hna : a.release.NonNeg) (hnb : b.release.NonNeg) : wb.key ≤ wa.key := by
  have nwa := ha.nonNeg hna
  have nwb := hb.nonNeg hnb
  have he : wb.epoch.value = wa.epoch.value := by rw [ha.numbers.1, hb.numbers.1, hp.1]
  rcases Nat.eq_or_lt_of_le hik with rfl | hlt
  · refine le_of_eq ((key_eq_iff _ _).2 ⟨he, (compareParts_eq_iff _ _ hb.valid.release ha.valid.release).2 fun j => ?_, ?_, ?_, ?_, ?_⟩)
    · rw [ha.numbers.2, hb.numbers.2]
      split
      · exact hp.2 j (by omega)
      · split
        · rw [hp.2 i (by omega)]
        · rfl
    · rw [hb.final.1, ha.final.1]
    · rw [hb.final.2.1, ha.final.2.1]
    · rw [hb.final.2.2.1, ha.final.2.2.1]
    · rw [hb.final.2.2.2, ha.final.2.2.2]
  · refine le_of_lt ((key_lt_iff _ _).2 (.inr ⟨he, .inl (compareParts_lt_of_below _ _ hb.valid.release ha.valid.release nwb ?_)⟩))
    refine ⟨i, fun j hj => ?_, ?_⟩
    · rw [ha.numbers.2, hb.numbers.2, if_pos hj, if_pos (by omega)]
      exact hp.2 j (by omega)
    · rw [hb.numbers.2, ha.numbers.2, if_pos hlt, if_neg (by omega), if_pos rfl, hp.2 i (by omega)]
      omega

theorem chained_true {next : Version → Except PyErr Version} (h : next a = .ok w) :
    Version.chained next v a = .ok true ↔ a.key ≤ v.key ∧ v.key < w.key := by
  rw [chained_ok h, Except.ok.injEq, Bool.and_eq_true, vle_iff, vlt_iff]

theorem caretIndex_le {r s : Release} {i k : Nat} (hr : CaretIndex r i) (hs : CaretIndex s k) (hp : ∀ j < i + 1, s.part j = r.part j)
    (hle : r.precision ≤ s.precision) : i ≤ k := by
  by_contra hc
  have hc := not_le.1 hc
  have hi : i + 1 ≤ min 3 r.precision := by
    rcases hr.2.2 with h | h
    · have : i < r.precision := by
        by_contra hn
        apply h
        unfold Release.part
        rw [List.getD_eq_getElem?_getD, List.getElem?_eq_none (by simpa [Release.precision] using hn)]
        rfl
      have := hr.1
      omega
    · omega
  have h0 : s.part k = 0 := by rw [hp k (by omega)]; exact hr.2.1 k hc
  rcases hs.2.2 with h | h
  · exact h h0
  · omega

/-- The window of `b` lies in the window of `a`. -/
theorem trans_of {f : Version → Except PyErr Version} {i k : Nat} {wa wb : Version} (ha : a.Sane) (hb : b.Sane)
    (h1 : f a = .ok wa) (h2 : f b = .ok wb) (ba : Bumped i a wa) (bb : Bumped k b wb) (hl : ¬ b.LeadsToFinal)
    (hik : b.SamePrefix (i + 1) a → i ≤ k)
    (hab : Version.chained f b a = .ok true) (hbc : Version.chained f c b = .ok true) : Version.chained f c a = .ok true := by
  rw [chained_true h1] at hab ⊢
  rw [chained_true h2] at hbc
  have hp : b.SamePrefix (i + 1) a := by
    rcases (ba.window ha.valid ha.nonNeg hb.valid hb.nonNeg hab.1).1 hab.2 with h | h
    · exact h
    · exact absurd h.2 hl
  exact ⟨le_trans hab.1 hbc.1, lt_of_lt_of_le hbc.2 (ba.le_of_prefix bb hp (hik hp) ha.nonNeg hb.nonNeg)⟩

/-- C73. `^` is transitive: what is compatible with something compatible is compatible, if the version in the middle is stable and
has at least as many parts. -/
theorem C73_caret (a b c : Version) (ha : a.Sane) (hb : b.Sane) (sa : a.pre = none ∧ a.dev = none) (sb : b.pre = none ∧ b.dev = none)
    (hp : a.precision ≤ b.precision) (hab : b.matchesCaret a = .ok true) (hbc : c.matchesCaret b = .ok true) :
    c.matchesCaret a = .ok true := by
  obtain ⟨wa, a1, a2, -⟩ := caret_spec ha.valid
  obtain ⟨wb, b1, b2, -⟩ := caret_spec hb.valid
  obtain ⟨i, ai, ba⟩ := a2 ((stable_iff a).2 sa)
  obtain ⟨k, bk, bb⟩ := b2 ((stable_iff b).2 sb)
  exact trans_of ha hb a1 b1 ba bb (by simp [Version.LeadsToFinal, sb]) (fun h => caretIndex_le ai bk h.2 hp) hab hbc

example : (exVersion [0, 2]).precision ≤ (exVersion [0, 2, 5]).precision ∧ (exVersion [0, 2, 5]).matchesCaret (exVersion [0, 2]) = .ok true ∧
    (exVersion [0, 2, 9] none (some postTag)).matchesCaret (exVersion [0, 2, 5]) = .ok true ∧
    (exVersion [0, 2, 9] none (some postTag)).matchesCaret (exVersion [0, 2]) = .ok true := by decide +kernel

/-- C73. So is `~`, -/
theorem C73_tilde (a b c : Version) (ha : a.Sane) (hb : b.Sane) (sa : a.pre = none ∧ a.dev = none) (sb : b.pre = none ∧ b.dev = none)
    (hp : a.precision ≤ b.precision) (hab : b.matchesTilde a = .ok true) (hbc : c.matchesTilde b = .ok true) :
    c.matchesTilde a = .ok true := by
  obtain ⟨wa, a1, a2, -⟩ := tilde_spec ha.valid
  obtain ⟨wb, b1, b2, -⟩ := tilde_spec hb.valid
  refine trans_of ha hb a1 b1 (a2 ((stable_iff a).2 sa)) (b2 ((stable_iff b).2 sb)) (by simp [Version.LeadsToFinal, sb]) (fun _ => ?_) hab hbc
  have : a.release.precision ≤ b.release.precision := hp
  split <;> split <;> omega

example : (exVersion [1, 2, 5]).matchesTilde (exVersion [1]) = .ok true ∧ (exVersion [1, 2, 9]).matchesTilde (exVersion [1, 2, 5]) = .ok true ∧
    (exVersion [1, 2, 9]).matchesTilde (exVersion [1]) = .ok true := by decide +kernel

/-- C73. and so is `~=`, where only what leads to a final version is excluded from the middle. -/
theorem C73_tilde_equal (a b c : Version) (ha : a.Sane) (hb : b.Sane) (hl : ¬ b.LeadsToFinal) (h2 : 2 ≤ a.precision)
    (hp : a.precision ≤ b.precision) (hab : b.matchesTildeEqual a = .ok true) (hbc : c.matchesTildeEqual b = .ok true) :
    c.matchesTildeEqual a = .ok true := by
  have hp' : a.release.precision ≤ b.release.precision := hp
  have h2' : 2 ≤ a.release.precision := h2
  obtain ⟨wa, a1, ba⟩ := (tildeEqual_spec ha.valid).2 h2'
  obtain ⟨wb, b1, bb⟩ := (tildeEqual_spec hb.valid).2 (by omega)
  exact trans_of ha hb a1 b1 ba bb hl (fun _ => by omega) hab hbc

/-- ^0.2.3 accepts 0.2.5, ^0.2.5 accepts 0.2.9, so ^0.2.3 accepts 0.2.9. -/
example : (exVersion [0, 2, 5]).matchesCaret (exVersion [0, 2, 3]) = .ok true ∧ (exVersion [0, 2, 9]).matchesCaret (exVersion [0, 2, 5]) = .ok true := by
  decide +kernel
example : (exVersion [1, 2, 5]).matchesTilde (exVersion [1, 2]) = .ok true ∧ (exVersion [1, 2, 9]).matchesTilde (exVersion [1, 2, 5]) = .ok true := by
  decide +kernel
example : (exVersion [1, 4, 5]).matchesTildeEqual (exVersion [1, 2]) = .ok true ∧
    (exVersion [1, 4, 9]).matchesTildeEqual (exVersion [1, 4, 5]) = .ok true := by decide +kernel

/-- C73, violation. Neither is transitive when the version in the middle has fewer parts, though it is equal to the first one:
0 for 0.0.0, 1 for 1.0, 1.2 for 1.2.0. -/
theorem C73_violation :
    (∃ a b c : Version, a.Sane ∧ b.Sane ∧ a.IsFinal ∧ b.IsFinal ∧ b ==ₚ a ∧ b.matchesCaret a = .ok true ∧ c.matchesCaret b = .ok true ∧
      c.matchesCaret a = .ok false) ∧
    (∃ a b c : Version, a.Sane ∧ b.Sane ∧ a.IsFinal ∧ b.IsFinal ∧ b ==ₚ a ∧ b.matchesTilde a = .ok true ∧ c.matchesTilde b = .ok true ∧
      c.matchesTilde a = .ok false) ∧
    (∃ a b c : Version, a.Sane ∧ b.Sane ∧ a.IsFinal ∧ b.IsFinal ∧ b ==ₚ a ∧ b.matchesTildeEqual a = .ok true ∧
      c.matchesTildeEqual b = .ok true ∧ c.matchesTildeEqual a = .ok false) := by
  have sane : ∀ p : List Int, p ≠ [] → (∀ x ∈ p, 0 ≤ x) → (exVersion p).Sane := fun p h1 h2 =>
    ⟨exValid p h1 none none none (by simp) (by simp) (by simp), h2⟩
  exact ⟨⟨exVersion [0, 0, 0], exVersion [0], exVersion [0, 5], sane _ (by decide) (by decide), sane _ (by decide) (by decide),
      ⟨rfl, rfl, rfl, rfl⟩, ⟨rfl, rfl, rfl, rfl⟩, by decide +kernel, by decide +kernel, by decide +kernel, by decide +kernel⟩,
    ⟨exVersion [1, 0], exVersion [1], exVersion [1, 5], sane _ (by decide) (by decide), sane _ (by decide) (by decide),
      ⟨rfl, rfl, rfl, rfl⟩, ⟨rfl, rfl, rfl, rfl⟩, by decide +kernel, by decide +kernel, by decide +kernel, by decide +kernel⟩,
    ⟨exVersion [1, 2, 0], exVersion [1, 2], exVersion [1, 5], sane _ (by decide) (by decide), sane _ (by decide) (by decide),
      ⟨rfl, rfl, rfl, rfl⟩, ⟨rfl, rfl, rfl, rfl⟩, by decide +kernel, by decide +kernel, by decide +kernel, by decide +kernel⟩⟩

example : (exVersion [0]).matchesCaret (exVersion [0, 0, 0]) = .ok true ∧ (exVersion [0, 5]).matchesCaret (exVersion [0]) = .ok true ∧
    (exVersion [0, 5]).matchesCaret (exVersion [0, 0, 0]) = .ok false := by decide +kernel

/-- C74. Of the versions from a stable `v` on, those below `v.next_at(i)` are exactly the ones that share the first `i + 1` parts, and
the ones that lead to it: it is the least final version that does not share them. -/
theorem C74_least (v u : Version) (hv : v.Sane) (hu : u.Sane) (hs : v.pre = none ∧ v.dev = none) (i : Nat) (h : v ≤ₚ u) :
    ∃ w, v.nextAt i = .ok w ∧ (u <ₚ w ↔ u.SamePrefix (i + 1) v ∨ (v.NumbersBumped i u ∧ u.LeadsToFinal)) := by
  obtain ⟨w, h1, h2⟩ := nextAt_stable hv.valid ((stable_iff v).2 hs) i
  exact ⟨w, h1, by rw [vlt_iff]; exact h2.window hv.valid hv.nonNeg hu.valid hu.nonNeg ((vle_iff _ _).1 h)⟩

example : (exVersion [1, 2]).nextAt 0 = .ok (exVersion [2, 0]) ∧ exVersion [1, 2] ≤ₚ exVersion [2, 0] (some rcTag) ∧
    exVersion [2, 0] (some rcTag) <ₚ exVersion [2, 0] ∧ (exVersion [1, 2]).NumbersBumped 0 (exVersion [2, 0] (some rcTag)) := by decide +kernel

/-- C74. Bumping stable versions keeps the order. -/
theorem C74_monotone (v w : Version) (hv : v.Sane) (hw : w.Sane) (sv : v.pre = none ∧ v.dev = none) (sw : w.pre = none ∧ w.dev = none)
    (i : Nat) (h : v ≤ₚ w) : ∃ v' w', v.nextAt i = .ok v' ∧ w.nextAt i = .ok w' ∧ v' ≤ₚ w' := by
  obtain ⟨v', v1, v2⟩ := nextAt_stable hv.valid ((stable_iff v).2 sv) i
  obtain ⟨w', w1, w2⟩ := nextAt_stable hw.valid ((stable_iff w).2 sw) i
  refine ⟨v', w', v1, w1, ?_⟩
  rw [vle_iff] at h ⊢
  by_cases hp : w.SamePrefix (i + 1) v
  · exact w2.le_of_prefix v2 ⟨hp.1.symm, fun j hj => (hp.2 j hj).symm⟩ (le_refl _) hw.nonNeg hv.nonNeg
  · refine le_trans (not_lt.1 fun hlt => ?_) (w2.lt hw.valid hw.nonNeg).le
    rcases (v2.window hv.valid hv.nonNeg hw.valid hw.nonNeg h).1 hlt with h' | h'
    · exact hp h'
    · exact absurd h'.2 (by simp [Version.LeadsToFinal, sw])

example : (exVersion [1, 2]).nextAt 1 = .ok (exVersion [1, 3]) ∧ (exVersion [1, 4]).nextAt 1 = .ok (exVersion [1, 5]) := by decide +kernel

/-- Stability matters: 1.2 comes before 1.3rc1, but the next major version of the first is 2.0 and that of the second is 1.3. -/
example : exVersion [1, 2] <ₚ exVersion [1, 3] (some rcTag) ∧ (exVersion [1, 2]).nextAt 0 = .ok (exVersion [2, 0]) ∧
    (exVersion [1, 3] (some rcTag)).nextAt 0 = .ok (exVersion [1, 3]) := by decide +kernel

end Verif
