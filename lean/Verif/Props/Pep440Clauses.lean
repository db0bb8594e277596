import Verif.Spec.Pep440Clauses
import Verif.Props.Order
import Verif.Props.Operators
import Verif.Props.SpecGrammar
/-!
# C68–C71: the operators of the library against the clauses of PEP 440
-/

namespace Verif
open Pep440

variable {a v : Version}

/-- Versions that both sides speak about: the phases are those of the library, and no part is negative. -/
structure Version.Sane (v : Version) : Prop where
  valid : v.Valid
  nonNeg : v.release.NonNeg

theorem Version.Sane.public (h : v.Sane) : (Public v).Sane :=
  ⟨⟨h.valid.1, h.valid.2, h.valid.3, h.valid.4, by rintro t ⟨⟩⟩, h.nonNeg⟩

theorem before_key_iff (ha : a.Sane) (hv : v.Sane) : a.Before v ↔ a.key < v.key := by
  rw [← C60_order a v ha.valid hv.valid ha.nonNeg hv.nonNeg, vlt_iff]

theorem same_iff (ha : a.Sane) (hv : v.Sane) : Same a v ↔ a.key = v.key := by
  unfold Same
  rw [before_key_iff ha hv, before_key_iff hv ha, not_lt, not_lt]
  exact ⟨fun h => le_antisymm h.2 h.1, fun h => ⟨h.ge, h.le⟩⟩

theorem public_lt_iff (h : a.local_ = none) : (Public v).key < a.key ↔ v.key < a.key := by
  rw [key_lt_iff, key_lt_iff]
  simp only [Public, h, Version.compareLocal]
  have bot : ∀ (x : Ext Local), ¬ extKey Local.key x < extKey Local.key .negInf := fun x => not_lt_bot
  simp only [bot]

theorem public_eq_iff (h : a.local_ = none) : v.key = a.key ↔ (Public v).key = a.key ∧ v.local_ = none := by
  rw [key_eq_iff, key_eq_iff]
  simp only [Public, h, and_true, and_assoc]

theorem accepts_ok {o : Operator} {b c : Bool} (h : o.accepts v = .ok b) : o.accepts v = .ok c ↔ c = b := by
  rw [h, Except.ok.injEq, eq_comm]

/-- C68. `==` and `!=` differ from PEP 440 exactly on candidates with a local segment that equal a version without one but
for it: there PEP 440 says that they match and the library that they do not. -/
theorem C68_equal (a v : Version) (ha : a.Sane) (hv : v.Sane) (t : OpType) (ht : t = .doubleEqual ∨ t = .equal) :
    ((⟨t, a⟩ : Operator).accepts v = .ok true ↔
      Allows .matching a v ∧ ¬ (a.local_ = none ∧ v.local_ ≠ none ∧ Same (Public v) a)) ∧
    ((⟨.notEqual, a⟩ : Operator).accepts v = .ok true ↔
      Allows .exclusion a v ∨ (a.local_ = none ∧ v.local_ ≠ none ∧ Same (Public v) a)) := by
  have e : (⟨t, a⟩ : Operator).accepts v = .ok (PyCmp.eq v a) := by rcases ht with rfl | rfl <;> rfl
  have n : (⟨.notEqual, a⟩ : Operator).accepts v = .ok (!PyCmp.eq v a) := rfl
  rw [accepts_ok e, accepts_ok n, eq_comm, veq_iff, eq_comm (a := true), Bool.not_eq_true', ← Bool.not_eq_true, veq_iff]
  unfold Allows Matches
  by_cases h : a.local_ = none
  · simp only [if_pos h, same_iff hv.public ha]
    rw [public_eq_iff (v := v) h]
    by_cases h1 : (Public v).key = a.key <;> by_cases h2 : v.local_ = none <;> simp [h, h1, h2]
  · simp [if_neg h, same_iff hv ha, h]

/-- `== 1.0` does not accept 1.0+local, which PEP 440 allows; `!= 1.0` accepts it. -/
example : (⟨.doubleEqual, exVersion [1, 0]⟩ : Operator).accepts (exVersion [1, 0] (l := some ⟨[.str "ubuntu".toList]⟩)) = .ok false ∧
    (⟨.notEqual, exVersion [1, 0]⟩ : Operator).accepts (exVersion [1, 0] (l := some ⟨[.str "ubuntu".toList]⟩)) = .ok true ∧
    (⟨.equal, exVersion [1, 0]⟩ : Operator).accepts (exVersion [1]) = .ok true := by decide +kernel

/-- C69. `>=` is the clause of PEP 440, `<=` differs from it exactly on candidates with a local segment that equal the version
but for it: there PEP 440 allows them and the library does not. -/
theorem C69_at_least_at_most (a v : Version) (ha : a.Sane) (hv : v.Sane) (hl : a.local_ = none) :
    ((⟨.greaterOrEqual, a⟩ : Operator).accepts v = .ok true ↔ Allows .atLeast a v) ∧
    ((⟨.lessOrEqual, a⟩ : Operator).accepts v = .ok true ↔ Allows .atMost a v ∧ ¬ (v.local_ ≠ none ∧ Same (Public v) a)) := by
  have g : (⟨.greaterOrEqual, a⟩ : Operator).accepts v = .ok (PyCmp.ge v a) := rfl
  have l : (⟨.lessOrEqual, a⟩ : Operator).accepts v = .ok (PyCmp.le v a) := rfl
  rw [accepts_ok g, accepts_ok l, eq_comm, vge_iff, eq_comm (a := true), vle_iff]
  simp only [Allows, before_key_iff ha hv.public, before_key_iff hv.public ha, same_iff hv.public ha, public_lt_iff hl, not_lt]
  refine ⟨trivial, ?_⟩
  rw [le_iff_lt_or_eq, le_iff_lt_or_eq, public_lt_iff hl, public_eq_iff (v := v) hl]
  by_cases h1 : (Public v).key = a.key <;> by_cases h2 : v.local_ = none
  · simp [h1, h2]
  · simp only [h1, h2, and_false, or_false, or_true, not_true_eq_false, and_true, ne_eq, not_false_eq_true, iff_false, true_and]
    rw [← public_lt_iff hl, h1]; exact lt_irrefl _
  · simp [h1, h2]
  · simp [h1, h2]

/-- `<= 1.0` does not accept 1.0+local, which PEP 440 allows; `>= 1.0` accepts it. -/
example : (⟨.lessOrEqual, exVersion [1, 0]⟩ : Operator).accepts (exVersion [1, 0] (l := some ⟨[.str "ubuntu".toList]⟩)) = .ok false ∧
    (⟨.greaterOrEqual, exVersion [1, 0]⟩ : Operator).accepts (exVersion [1, 0] (l := some ⟨[.str "ubuntu".toList]⟩)) = .ok true := by
  decide +kernel

theorem sameNumbers_iff (ha : a.Sane) (hv : v.Sane) :
    v.SameNumbers a ↔ v.epoch.value = a.epoch.value ∧ v.release.compareParts = a.release.compareParts := by
  unfold Version.SameNumbers
  rw [compareParts_eq_iff _ _ hv.valid.release ha.valid.release]
  exact and_congr_left fun _ => ⟨fun h => by rw [h], epoch_ext⟩

/-- C70. `<` allows all that PEP 440 allows; for a final version it allows besides exactly the pre-releases and developmental
releases of that version. -/
theorem C70_below (a v : Version) (ha : a.Sane) (hv : v.Sane) :
    (Allows .below a v → (⟨.less, a⟩ : Operator).accepts v = .ok true) ∧
    (IsPre a → ((⟨.less, a⟩ : Operator).accepts v = .ok true ↔ Allows .below a v)) ∧
    (a.IsFinal → ((⟨.less, a⟩ : Operator).accepts v = .ok true ↔ Allows .below a v ∨ v.SameNumbers a ∧ v.LeadsToFinal)) := by
  have l : (⟨.less, a⟩ : Operator).accepts v = .ok (PyCmp.lt v a) := rfl
  rw [accepts_ok l, eq_comm, vlt_iff]
  simp only [Allows, before_key_iff hv ha]
  refine ⟨fun h => h.1, fun h => by simp [h], fun hf => ?_⟩
  have hp : ¬ IsPre a := by simp [IsPre, hf.1, hf.2.2.1]
  by_cases hs : v.SameNumbers a
  · obtain ⟨he, hc⟩ := (sameNumbers_iff ha hv).1 hs
    have := lt_final_iff hf he hc
    simp only [this, hp, hs, not_false_eq_true, true_and, and_true]
    constructor
    · exact fun h => Or.inr h
    · rintro (h | h)
      · exact h.1
      · exact h
  · simp [hs]

/-- `< 1.7` accepts 1.7rc1, which PEP 440 does not allow. -/
example : (⟨.less, exVersion [1, 7]⟩ : Operator).accepts (exVersion [1, 7] (some rcTag)) = .ok true ∧
    ¬ Allows .below (exVersion [1, 7]) (exVersion [1, 7] (some rcTag)) :=
  ⟨by decide +kernel, fun h => h.2 ⟨by simp [IsPre, exVersion], by simp [IsPre, exVersion], rfl, fun _ => rfl⟩⟩

theorem gt_final_iff {v w : Version} (hw : w.IsFinal) (he : v.epoch.value = w.epoch.value)
    (hc : v.release.compareParts = w.release.compareParts) :
    w.key < v.key ↔ v.pre = none ∧ (v.post ≠ none ∨ (v.dev = none ∧ v.local_ ≠ none)) := by
  have h1 := lt_final_iff hw he hc
  have h2 : v.key = w.key ↔ v.pre = none ∧ v.post = none ∧ v.dev = none ∧ v.local_ = none := by
    rw [key_eq_iff]; simp [he, hc, hw.1, hw.2.1, hw.2.2.1, hw.2.2.2]
  rw [← not_le, le_iff_lt_or_eq, h1, h2, Version.LeadsToFinal]
  by_cases p : v.pre = none <;> by_cases q : v.post = none <;> by_cases d : v.dev = none <;> by_cases l : v.local_ = none <;>
    simp [p, q, d, l]

/-- C70. `>` allows all that PEP 440 allows; for a final version it allows besides exactly the post-releases of that version
and its local versions. -/
theorem C70_above (a v : Version) (ha : a.Sane) (hv : v.Sane) :
    (Allows .above a v → (⟨.greater, a⟩ : Operator).accepts v = .ok true) ∧
    (a.IsFinal → ((⟨.greater, a⟩ : Operator).accepts v = .ok true ↔
      Allows .above a v ∨ v.SameNumbers a ∧ v.pre = none ∧ (v.post ≠ none ∨ (v.dev = none ∧ v.local_ ≠ none)))) := by
  have g : (⟨.greater, a⟩ : Operator).accepts v = .ok (PyCmp.gt v a) := rfl
  rw [accepts_ok g, eq_comm, vgt_iff]
  simp only [Allows, before_key_iff ha hv]
  refine ⟨fun h => h.1, fun hf => ?_⟩
  by_cases hs : v.SameNumbers a
  · obtain ⟨he, hc⟩ := (sameNumbers_iff ha hv).1 hs
    have := gt_final_iff hf he hc
    simp only [this, hs, true_and, and_true]
    constructor
    · exact fun h => Or.inr h
    · rintro (h | h)
      · exact h.1
      · exact h
  · simp [hs]

/-- `> 1.7` accepts 1.7.post1, which PEP 440 does not allow. -/
example : (⟨.greater, exVersion [1, 7]⟩ : Operator).accepts (exVersion [1, 7] none (some postTag)) = .ok true ∧
    ¬ Allows .above (exVersion [1, 7]) (exVersion [1, 7] none (some postTag)) :=
  ⟨by decide +kernel, fun h => h.2.1 ⟨rfl, by simp [exVersion], rfl, fun _ => rfl⟩⟩

/-- C71. `~=` allows besides what PEP 440 allows exactly the pre-releases and developmental releases that lead to the first
release after the window. -/
theorem C71_compatible (a v : Version) (ha : a.Sane) (hv : v.Sane) (hl : a.local_ = none) (hp : 2 ≤ a.release.precision) :
    (⟨.tildeEqual, a⟩ : Operator).accepts v = .ok true ↔
      Allows .compatible a v ∨ (a.NumbersBumped (a.release.precision - 2) v ∧ v.LeadsToFinal) := by
  obtain ⟨b, h1, h2⟩ := C17_tilde_equal a v ha.valid ha.nonNeg hp hv.valid hv.nonNeg
  have e : (⟨.tildeEqual, a⟩ : Operator).accepts v = .ok b := h1
  rw [accepts_ok e, eq_comm, h2, vle_iff]
  simp only [Allows, before_key_iff hv.public ha, public_lt_iff hl, not_lt]
  constructor
  · rintro ⟨h3, h4 | h4⟩
    · exact .inl ⟨h3, h4⟩
    · exact .inr h4
  · rintro (⟨h3, h4⟩ | ⟨h3, h4⟩)
    · exact ⟨h3, .inl h4⟩
    · refine ⟨le_of_lt ?_, .inr ⟨h3, h4⟩⟩
      rw [key_lt_iff]
      refine Or.inr ⟨by rw [h3.1], Or.inl (compareParts_lt_of_below _ _ ha.valid.release hv.valid.release ha.nonNeg (below_nextAt h3.2))⟩

/-- `~= 1.2` accepts 2.0rc1, which PEP 440 does not allow, but neither accepts 2.0. -/
example : (⟨.tildeEqual, exVersion [1, 2]⟩ : Operator).accepts (exVersion [2, 0] (some rcTag)) = .ok true ∧
    (⟨.tildeEqual, exVersion [1, 2]⟩ : Operator).accepts (exVersion [2, 0]) = .ok false ∧
    ¬ Allows .compatible (exVersion [1, 2]) (exVersion [2, 0] (some rcTag)) :=
  ⟨by decide +kernel, by decide +kernel, fun h => absurd (h.2.2 0 (by decide)) (by decide)⟩

/-- What `== p.*` is read as: a wildcard operator on the version with a zero in place of the `*`. -/
def Version.starred (p : Version) : Version := { p with release := ⟨p.release.parts ++ [0]⟩ }

theorem starred_part (p : Version) (j : Nat) : p.starred.release.part j = p.release.part j := by
  unfold Release.part Version.starred
  simp only [List.getD_eq_getElem?_getD, List.getElem?_append]
  split
  · rfl
  · rw [List.getElem?_eq_none (l := p.release.parts) (by omega)]
    cases j - p.release.parts.length <;> rfl

theorem starred_precision (p : Version) : p.starred.release.precision = p.release.precision + 1 := by
  simp [Version.starred, Release.precision]

theorem Version.Sane.starred {p : Version} (h : p.Sane) : p.starred.Sane := by
  refine ⟨⟨by simp [Version.starred, Release.Valid], h.valid.2, h.valid.3, h.valid.4, h.valid.5⟩, ?_⟩
  intro x hx
  simp only [Version.starred, List.mem_append, List.mem_singleton] at hx
  rcases hx with hx | rfl
  · exact h.nonNeg x hx
  · exact le_refl _

/-- Below the version with a zero in place of the `*`, among those with the prefix. -/
theorem lt_starred_iff {p : Version} (hp : p.Sane) (hf : p.IsFinal) (hv : v.Sane) (h : v.SamePrefix p.release.precision p) :
    v.key < p.starred.key ↔ v.SameNumbers p ∧ v.LeadsToFinal := by
  have hs : v.SameNumbers p ↔ v.SameNumbers p.starred := by
    unfold Version.SameNumbers; simp only [starred_part]; rfl
  by_cases hn : v.SameNumbers p
  · obtain ⟨he, hc⟩ := (sameNumbers_iff hp.starred hv).1 (hs.1 hn)
    rw [lt_final_iff (w := p.starred) hf he hc]
    simp [hn]
  · simp only [hn, false_and, iff_false]
    intro hlt
    rw [key_lt_iff] at hlt
    rcases hlt with hlt | ⟨-, hlt | ⟨hlt, -⟩⟩
    · have : v.epoch.value = p.epoch.value := by rw [h.1]
      exact absurd hlt (by show ¬ v.epoch.value < p.epoch.value; omega)
    · rw [compareParts_lt_iff _ _ hv.valid.release hp.starred.valid.release hv.nonNeg hp.starred.nonNeg] at hlt
      obtain ⟨j, -, hj⟩ := hlt
      rw [starred_part] at hj
      by_cases hjp : j < p.release.precision
      · have := h.2 j hjp; omega
      · have h0 : p.release.part j = 0 := by
          unfold Release.part
          rw [List.getD_eq_getElem?_getD, List.getElem?_eq_none (by simpa [Release.precision] using hjp)]
          rfl
        have := part_nonneg hv.nonNeg j
        omega
    · exact hn (hs.2 ((sameNumbers_iff hp.starred hv).2 ⟨by show _ = p.epoch.value; rw [h.1], hlt⟩))

/-- C71. `== p.*` differs from PEP 440 exactly on what leads to a final version: it does not allow what leads to `p` itself, and
it allows what leads to the first release after the window; `!= p.*` is the opposite of `== p.*` in both. -/
theorem C71_prefix (p v : Version) (hp : p.Sane) (hf : p.IsFinal) (hv : v.Sane) (t : OpType)
    (ht : t = .wildcardDoubleEqual ∨ t = .wildcardEqual) :
    ((⟨t, p.starred⟩ : Operator).accepts v = .ok true ↔
      (Allows .prefixMatching p v ∧ ¬ (v.SameNumbers p ∧ v.LeadsToFinal)) ∨
      (p.NumbersBumped (p.release.precision - 1) v ∧ v.LeadsToFinal)) ∧
    ((⟨.wildcardNotEqual, p.starred⟩ : Operator).accepts v = .ok true ↔
      (Allows .prefixExclusion p v ∨ (v.SameNumbers p ∧ v.LeadsToFinal)) ∧
      ¬ (p.NumbersBumped (p.release.precision - 1) v ∧ v.LeadsToFinal)) := by
  have hpos : 0 < p.release.precision := (precision_pos_iff _).2 hp.valid.release
  have hb : p.starred.NumbersBumped (p.release.precision - 1) v ↔ p.NumbersBumped (p.release.precision - 1) v := by
    unfold Version.NumbersBumped; simp only [starred_part]; rfl
  have hx : v.SamePrefix p.release.precision p.starred ↔ v.SamePrefix p.release.precision p := by
    unfold Version.SamePrefix; simp only [starred_part]; rfl
  obtain ⟨b, h1, h2⟩ := C18_wildcard_general p.starred v hp.starred.valid hp.starred.nonNeg
    (by rw [starred_precision]; omega) ⟨hf.1, hf.2.1, hf.2.2.1⟩ hv.valid hv.nonNeg
  rw [vle_iff, starred_precision, show p.release.precision + 1 - 1 = p.release.precision by omega,
    show p.release.precision + 1 - 2 = p.release.precision - 1 by omega, hb, hx] at h2
  have hmain : b = true ↔ (v.SamePrefix p.release.precision p ∧ ¬ (v.SameNumbers p ∧ v.LeadsToFinal)) ∨
      (p.NumbersBumped (p.release.precision - 1) v ∧ v.LeadsToFinal) := by
    rw [h2]
    constructor
    · rintro ⟨h3, h4 | h4⟩
      · exact .inl ⟨h4, fun h5 => absurd ((lt_starred_iff hp hf hv h4).2 h5) (not_lt.2 h3)⟩
      · exact .inr h4
    · rintro (⟨h3, h4⟩ | ⟨h3, h4⟩)
      · exact ⟨not_lt.1 fun h5 => h4 ((lt_starred_iff hp hf hv h3).1 h5), .inl h3⟩
      · refine ⟨le_of_lt ?_, .inr ⟨h3, h4⟩⟩
        rw [key_lt_iff]
        exact Or.inr ⟨by rw [(hb.2 h3).1], Or.inl (compareParts_lt_of_below _ _ hp.starred.valid.release hv.valid.release
          hp.starred.nonNeg (below_nextAt (hb.2 h3).2))⟩
  have e : (⟨t, p.starred⟩ : Operator).accepts v = .ok b := by rcases ht with rfl | rfl <;> exact h1
  have n : (⟨.wildcardNotEqual, p.starred⟩ : Operator).accepts v = .ok (!b) := by
    show Version.matchesWildcardNotEqual v p.starred = _
    simp [Version.matchesWildcardNotEqual, h1, bind, Except.bind]
  rw [accepts_ok e, accepts_ok n, eq_comm, hmain, eq_comm (a := true), Bool.not_eq_true', ← Bool.not_eq_true, hmain]
  simp only [Allows]
  generalize v.SamePrefix p.release.precision p = A, (v.SameNumbers p ∧ v.LeadsToFinal) = B,
    (p.NumbersBumped (p.release.precision - 1) v ∧ v.LeadsToFinal) = C
  by_cases hA : A <;> by_cases hB : B <;> by_cases hC : C <;> simp [hA, hB, hC]

/-- `== 1.1.*` rejects 1.1a1, which PEP 440 allows, and accepts 1.2a1, which it does not allow. -/
example : (⟨.wildcardDoubleEqual, (exVersion [1, 1]).starred⟩ : Operator).accepts (exVersion [1, 1] (some rcTag)) = .ok false ∧
    Allows .prefixMatching (exVersion [1, 1]) (exVersion [1, 1] (some rcTag)) ∧
    (⟨.wildcardDoubleEqual, (exVersion [1, 1]).starred⟩ : Operator).accepts (exVersion [1, 2] (some rcTag)) = .ok true ∧
    ¬ Allows .prefixMatching (exVersion [1, 1]) (exVersion [1, 2] (some rcTag)) ∧
    Specifier.parse "== 1.1.*".toList = .ok (.one ⟨.wildcardDoubleEqual, (exVersion [1, 1]).starred⟩) :=
  ⟨by decide +kernel, ⟨rfl, fun _ _ => rfl⟩, by decide +kernel, fun h => absurd (h.2 1 (by decide)) (by decide), by rfl⟩

/-- The operator that spells a clause, with its version. -/
inductive Spells : Clause → Version → Operator → Prop
  | compatible {a : Version} : 2 ≤ a.release.precision → Spells .compatible a ⟨.tildeEqual, a⟩
  | matching {a : Version} : Spells .matching a ⟨.doubleEqual, a⟩
  | exclusion {a : Version} : Spells .exclusion a ⟨.notEqual, a⟩
  | prefixMatching {a : Version} : a.IsFinal → Spells .prefixMatching a ⟨.wildcardDoubleEqual, a.starred⟩
  | prefixExclusion {a : Version} : a.IsFinal → Spells .prefixExclusion a ⟨.wildcardNotEqual, a.starred⟩
  | atMost {a : Version} : Spells .atMost a ⟨.lessOrEqual, a⟩
  | atLeast {a : Version} : Spells .atLeast a ⟨.greaterOrEqual, a⟩
  | below {a : Version} : Spells .below a ⟨.less, a⟩
  | above {a : Version} : Spells .above a ⟨.greater, a⟩

/-- C72. On candidates that are final releases, every operator is its clause of PEP 440. -/
theorem C72_final (c : Clause) (a v : Version) (o : Operator) (ho : Spells c a o) (ha : a.Sane) (hv : v.Sane) (hl : a.local_ = none)
    (hf : v.IsFinal) : o.accepts v = .ok true ↔ Allows c a v := by
  have nl : ¬ v.LeadsToFinal := by simp [Version.LeadsToFinal, hf.1, hf.2.2.1]
  have np : ¬ IsPre v := by simp [IsPre, hf.1, hf.2.2.1]
  cases ho with
  | compatible hp => rw [C71_compatible a v ha hv hl hp]; simp [nl]
  | matching => rw [(C68_equal a v ha hv .doubleEqual (.inl rfl)).1]; simp [hf.2.2.2]
  | exclusion => rw [(C68_equal a v ha hv .doubleEqual (.inl rfl)).2]; simp [hf.2.2.2]
  | prefixMatching h => rw [(C71_prefix a v ha h hv .wildcardDoubleEqual (.inl rfl)).1]; simp [nl]
  | prefixExclusion h => rw [(C71_prefix a v ha h hv .wildcardDoubleEqual (.inl rfl)).2]; simp [nl]
  | atMost => rw [(C69_at_least_at_most a v ha hv hl).2]; simp [hf.2.2.2]
  | atLeast => rw [(C69_at_least_at_most a v ha hv hl).1]
  | below =>
    rw [accepts_ok (b := PyCmp.lt v a) rfl, eq_comm, vlt_iff]
    simp [Allows, before_key_iff hv ha, np]
  | above =>
    rw [accepts_ok (b := PyCmp.gt v a) rfl, eq_comm, vgt_iff]
    simp [Allows, before_key_iff ha hv, hf.2.1, hf.2.2.2]

example : Spells .compatible (exVersion [1, 2]) ⟨.tildeEqual, exVersion [1, 2]⟩ ∧ (exVersion [1, 5]).IsFinal ∧
    (⟨.tildeEqual, exVersion [1, 2]⟩ : Operator).accepts (exVersion [1, 5]) = .ok true :=
  ⟨.compatible (by decide), ⟨rfl, rfl, rfl, rfl⟩, by decide +kernel⟩

end Verif
