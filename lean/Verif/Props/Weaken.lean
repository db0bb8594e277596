import Verif.Props.Order
import Verif.Props.Parsing
/-!
# C65: dropping segments, and weakening
-/

namespace Verif

/-- C65. Without its local segment a version is smaller, or unchanged. -/
theorem C65_without_local (v : Version) : (v.local_ = none → v.withoutLocal = v) ∧ (v.local_ ≠ none → v.withoutLocal <ₚ v) ∧
    v.withoutLocal = { v with local_ := none } := by
  refine ⟨fun h => ?_, fun h => ?_, rfl⟩
  · obtain ⟨e, r, p, q, d, l⟩ := v
    cases h
    rfl
  · refine (vlt_iff _ _).2 ((key_lt_same _ _ (by rfl) (by rfl)).2 ?_)
    refine Or.inr ⟨rfl, Or.inr ⟨rfl, Or.inr ⟨rfl, ?_⟩⟩⟩
    cases hl : v.local_ with
    | none => exact absurd hl h
    | some l => exact extKey_negInf_lt_fin _ _

example : (exVersion [1] (l := some ⟨[.int 5]⟩)).withoutLocal = exVersion [1] ∧ exVersion [1] <ₚ exVersion [1] (l := some ⟨[.int 5]⟩) := by decide +kernel

/-- C65. Without its post tag a version is smaller, or unchanged. -/
theorem C65_without_post (v : Version) : (v.post = none → v.withoutPost = v) ∧ (v.post ≠ none → v.withoutPost <ₚ v) ∧
    v.withoutPost = { v with post := none } := by
  refine ⟨fun h => ?_, fun h => ?_, rfl⟩
  · obtain ⟨e, r, p, q, d, l⟩ := v
    cases h
    rfl
  · refine (vlt_iff _ _).2 ((key_lt_same _ _ (by rfl) (by rfl)).2 ?_)
    obtain ⟨e, r, p, q, d, l⟩ := v
    cases q with
    | none => exact absurd rfl h
    | some q =>
      have hq : extKey Tag.key (Version.comparePost none) < extKey Tag.key (Version.comparePost (some q)) := extKey_negInf_lt_fin _ _
      cases p with
      | some p => exact Or.inr ⟨rfl, Or.inl hq⟩
      | none =>
        cases d with
        | none => exact Or.inr ⟨rfl, Or.inl hq⟩
        | some d => exact Or.inl (extKey_negInf_lt_posInf _)

example : (exVersion [1] none (some postTag)).withoutPost = exVersion [1] ∧ exVersion [1] <ₚ exVersion [1] none (some postTag) := by decide +kernel

/-- C65. Without its dev tag a version is greater, or unchanged. -/
theorem C65_without_dev (v : Version) : (v.dev = none → v.withoutDev = v) ∧ (v.dev ≠ none → v <ₚ v.withoutDev) ∧
    v.withoutDev = { v with dev := none } := by
  refine ⟨fun h => ?_, fun h => ?_, rfl⟩
  · obtain ⟨e, r, p, q, d, l⟩ := v
    cases h
    rfl
  · refine (vlt_iff _ _).2 ((key_lt_same _ _ (by rfl) (by rfl)).2 ?_)
    obtain ⟨e, r, p, q, d, l⟩ := v
    cases d with
    | none => exact absurd rfl h
    | some d =>
      have hd : extKey Tag.key (Version.compareDev (some d)) < extKey Tag.key (Version.compareDev none) := extKey_fin_lt_posInf _ _
      cases p with
      | some p => exact Or.inr ⟨rfl, Or.inr ⟨rfl, Or.inl hd⟩⟩
      | none =>
        cases q with
        | none => exact Or.inl (extKey_negInf_lt_posInf _)
        | some q => exact Or.inr ⟨rfl, Or.inr ⟨rfl, Or.inl hd⟩⟩

example : (exVersion [1] none none (some devTag)).withoutDev = exVersion [1] ∧ exVersion [1] none none (some devTag) <ₚ exVersion [1] := by decide +kernel

/-- C65. Without its pre tag a version is greater, or unchanged, except that a dev release of a pre-release becomes a smaller
dev release of the final release. -/
theorem C65_without_pre (v : Version) : (v.pre = none → v.withoutPre = v) ∧
    (v.pre ≠ none → if v.post = none ∧ v.dev ≠ none then v.withoutPre <ₚ v else v <ₚ v.withoutPre) ∧
    v.withoutPre = { v with pre := none } := by
  refine ⟨fun h => ?_, fun h => ?_, rfl⟩
  · obtain ⟨e, r, p, q, d, l⟩ := v
    cases h
    rfl
  · obtain ⟨e, r, p, q, d, l⟩ := v
    cases p with
    | none => exact absurd rfl h
    | some p =>
      split
      · rename_i hd
        obtain ⟨rfl, hd⟩ : q = none ∧ d ≠ none := hd
        refine (vlt_iff _ _).2 ((key_lt_same _ _ (by rfl) (by rfl)).2 ?_)
        cases d with
        | none => exact absurd rfl hd
        | some d => exact Or.inl (extKey_negInf_lt_fin _ _)
      · rename_i hd
        refine (vlt_iff _ _).2 ((key_lt_same _ _ (by rfl) (by rfl)).2 ?_)
        left
        cases q with
        | some q => exact extKey_fin_lt_posInf _ _
        | none =>
          cases d with
          | none => exact extKey_fin_lt_posInf _ _
          | some d => exact absurd ⟨rfl, by simp⟩ hd

example : (exVersion [1] (pre := some ⟨"alpha".toList, 1⟩) (dev := some ⟨"dev".toList, 2⟩)).withoutPre = exVersion [1] (dev := some ⟨"dev".toList, 2⟩) ∧
    exVersion [1] (dev := some ⟨"dev".toList, 2⟩) <ₚ exVersion [1] (pre := some ⟨"alpha".toList, 1⟩) (dev := some ⟨"dev".toList, 2⟩) ∧
    exVersion [1] (pre := some ⟨"alpha".toList, 1⟩) <ₚ exVersion [1] := by decide +kernel

/-- C65. What `v.weaken(other)` is: `other` without the local segment if `v` has none, and without the post tag if `v` has
none. -/
theorem C65_weaken (v other : Version) : v.weaken other =
    { other with local_ := if v.local_ = none then none else other.local_, post := if v.post = none then none else other.post } := by
  obtain ⟨e, r, p, q, d, l⟩ := v
  obtain ⟨e', r', p', q', d', l'⟩ := other
  cases q <;> cases q' <;> cases l <;> cases l' <;> rfl

example : (exVersion [1]).weaken (exVersion [2] none (some postTag) none (some ⟨[.int 5]⟩)) = exVersion [2] ∧
    (exVersion [1] none (some postTag)).weaken (exVersion [2] none (some postTag) none (some ⟨[.int 5]⟩)) = exVersion [2] none (some postTag) := by
  decide +kernel

/-- C65. Weakening never makes a version greater, weakening again changes nothing, and it changes nothing at all exactly if
`other` has no local segment and no post tag that `v` lacks. -/
theorem C65_weaken_laws (v other : Version) : v.weaken other ≤ₚ other ∧ v.weaken (v.weaken other) = v.weaken other ∧
    (v.weaken other = other ↔ (v.local_ = none → other.local_ = none) ∧ (v.post = none → other.post = none)) := by
  refine ⟨?_, ?_, ?_⟩
  · have h1 : ∀ o : Version, o.withoutLocal.key ≤ o.key := by
      intro o
      by_cases h : o.local_ = none
      · rw [(C65_without_local o).1 h]
      · exact le_of_lt ((vlt_iff _ _).1 ((C65_without_local o).2.1 h))
    have h2 : ∀ o : Version, o.withoutPost.key ≤ o.key := by
      intro o
      by_cases h : o.post = none
      · rw [(C65_without_post o).1 h]
      · exact le_of_lt ((vlt_iff _ _).1 ((C65_without_post o).2.1 h))
    rw [vle_iff]
    unfold Version.weaken
    dsimp only
    split <;> split
    · exact le_trans (h2 _) (h1 _)
    · exact h1 _
    · exact h2 _
    · exact le_refl _
  · rw [C65_weaken, C65_weaken]
    by_cases h : v.local_ = none <;> by_cases h' : v.post = none <;> simp [h, h']
  · rw [C65_weaken]
    obtain ⟨e', r', p', q', d', l'⟩ := other
    by_cases h : v.local_ = none <;> by_cases h' : v.post = none <;> simp [h, h', eq_comm, and_comm]

example : exVersion [2] ≤ₚ exVersion [2] none (some postTag) ∧ (exVersion [1]).weaken (exVersion [2] none (some postTag)) = exVersion [2] ∧
    (exVersion [1]).weaken (exVersion [2]) = exVersion [2] := by decide +kernel

/-- C65, violation. Weakening "for further comparison" does not keep the order: 1 is below 1.post1.dev1, but above what that
is weakened to. -/
theorem C65_weaken_order : ∃ v other : Version, v.Canonical ∧ other.Canonical ∧ v <ₚ other ∧ v.weaken other <ₚ v.weaken v := by
  refine ⟨exVersion [1], exVersion [1] (post := some ⟨"post".toList, 1⟩) (dev := some ⟨"dev".toList, 1⟩), ?_, ?_, ?_, ?_⟩
  · exact parse_canonical (s := "1".toList) (by decide +kernel)
  · exact parse_canonical (s := "1.post1.dev1".toList) (by decide +kernel)
  · decide +kernel
  · decide +kernel

example : (exVersion [1, 2]).weaken (exVersion [1, 2] (post := some ⟨"post".toList, 1⟩) (l := some ⟨[.int 7]⟩)) = exVersion [1, 2] := by decide +kernel

end Verif
