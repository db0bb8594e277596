import Verif.Proofs.ParsedSets
import Verif.Props.Parsing
import Verif.Props.Sets
/-!
# C66, C67: the versions that strings can denote, and sets of them
-/

namespace Verif

/-- C66. `0.dev0` is the least of the versions that strings can denote. -/
theorem C66_least (s : PyStr) (v : Version) (h : Version.parse s = .ok v) :
    ∃ w, Version.parse "0.dev0".toList = .ok w ∧ w ≤ₚ v := by
  refine ⟨leastVersion, by decide +kernel, ?_⟩
  rw [vle_iff]
  exact least_le (parse_canonical h)

example : Version.parse "0.dev0".toList = .ok (exVersion [0] none none (some ⟨"dev".toList, 0⟩)) ∧
    exVersion [0] none none (some ⟨"dev".toList, 0⟩) <ₚ exVersion [0] (some ⟨"alpha".toList, 0⟩) none (some ⟨"dev".toList, 0⟩) := by decide +kernel

/-- C66. There is no greatest one. -/
theorem C66_no_greatest (s : PyStr) (v : Version) (h : Version.parse s = .ok v) :
    ∃ t w, Version.parse t = .ok w ∧ v <ₚ w := by
  have hv := parse_canonical h
  have hc : v.nextEpoch.Canonical :=
    ⟨⟨hv.valid.1, hv.valid.2, hv.valid.3, hv.valid.4, hv.valid.5⟩,
      by have := hv.epoch; show (0 : Int) ≤ v.epoch.value + 1; omega, hv.release, hv.pre, hv.post, hv.dev, hv.local_⟩
  refine ⟨_, _, parse_short hc, ?_⟩
  rw [vlt_iff, key_lt_iff]
  left
  show v.epoch.value < v.epoch.value + 1
  omega

example : ∃ t w, Version.parse t = .ok w ∧ exVersion [9, 9] none (some postTag) <ₚ w :=
  C66_no_greatest "9.9.post1".toList _ (by decide +kernel)

/-- C66. Between any two different ones there is another. -/
theorem C66_dense (s t : PyStr) (v w : Version) (hs : Version.parse s = .ok v) (ht : Version.parse t = .ok w) (h : v <ₚ w) :
    ∃ u x, Version.parse u = .ok x ∧ v <ₚ x ∧ x <ₚ w := by
  obtain ⟨l, h1, h2, h3⟩ := exists_canonical_between (parse_canonical hs) (parse_canonical ht) ((vlt_iff _ _).1 h)
  exact ⟨_, _, parse_short h1, (vlt_iff _ _).2 h2, (vlt_iff _ _).2 h3⟩

/-- There is a version between 1+a and 1+a.0a: 1+a.00a. -/
example : ∃ v x w, Version.parse "1+a".toList = .ok v ∧ Version.parse "1+a.00a".toList = .ok x ∧ Version.parse "1+a.0a".toList = .ok w ∧
    v <ₚ x ∧ x <ₚ w :=
  ⟨exVersion [1] (l := some ⟨[.str "a".toList]⟩), exVersion [1] (l := some ⟨[.str "a".toList, .str "00a".toList]⟩),
    exVersion [1] (l := some ⟨[.str "a".toList, .str "0a".toList]⟩), by decide +kernel⟩

/-- The ends in the set's representation are versions that strings can denote. -/
def VSet.Canonical (s : VSet) : Prop := ∀ i ∈ s.extract, i.Canonical

/-- Some item of the set has no lower end. -/
def VSet.Bottomless (s : VSet) : Prop := ∃ i ∈ s.extract, i.min = none

/-- C67. `a.includes(b)` iff every version of `b` that a string can denote is in `a`, and `a` has no lower end if `b` has
none. -/
theorem C67_includes (a b : VSet) (ha : a.Normal) (hb : b.Normal) (ca : a.Canonical) (cb : b.Canonical) :
    a.includes b = true ↔ (∀ s v, Version.parse s = .ok v → b.Mem v → a.Mem v) ∧ (b.Bottomless → a.Bottomless) := by
  rw [includes_iff_cov ha hb]
  unfold VSet.Cov
  rw [cov_of_canonical ca cb]
  simp only [mem_iff_cov]
  refine and_congr ⟨fun h s v hs => h v (parse_canonical hs), fun h v hv => h _ v (parse_short hv)⟩ Iff.rfl

example : ((VSet.parse 5 "^1.2".toList).bind fun x => (VSet.parse 5 "~1.4".toList).bind fun y => .ok (x.includes y, y.includes x)) = .ok (true, false) := by
  decide +kernel

/-- C67. Two sets are `==` iff they contain the same versions that strings can denote, and both or neither have no lower
end. -/
theorem C67_eq (a b : VSet) (ha : a.Normal) (hb : b.Normal) (ca : a.Canonical) (cb : b.Canonical) :
    a.eq b = true ↔ (∀ s v, Version.parse s = .ok v → (a.Mem v ↔ b.Mem v)) ∧ (a.Bottomless ↔ b.Bottomless) := by
  rw [(C28_equivalence a b a ha hb ha).2.2.2, C67_includes a b ha hb ca cb, C67_includes b a hb ha cb ca]
  constructor
  · rintro ⟨⟨h1, h2⟩, h3, h4⟩
    exact ⟨fun s v hs => ⟨h3 s v hs, h1 s v hs⟩, h4, h2⟩
  · rintro ⟨h1, h2⟩
    exact ⟨⟨fun s v hs => (h1 s v hs).2, h2.2⟩, fun s v hs => (h1 s v hs).1, h2.1⟩

example : ((VSet.parse 5 "^1.2".toList).bind fun x => (VSet.parse 5 ">= 1.2.0, < 2".toList).bind fun y => .ok (x.eq y)) = .ok true := by
  decide +kernel

/-- C67. `a.intersects(b)` iff some version that a string can denote is in both, or both have no lower end. -/
theorem C67_intersects (a b : VSet) (ha : a.Normal) (hb : b.Normal) (ca : a.Canonical) (cb : b.Canonical) :
    a.intersects b = true ↔ (∃ s v, Version.parse s = .ok v ∧ a.Mem v ∧ b.Mem v) ∨ (a.Bottomless ∧ b.Bottomless) := by
  rw [intersects_iff_cov ha hb]
  unfold VSet.Cov
  simp only [mem_iff_cov]
  constructor
  · rintro ⟨c, ⟨x, hx, x1, x2⟩, ⟨y, hy, y1, y2⟩⟩
    by_cases hlow : c < cutAt leastVersion false
    · exact Or.inr ⟨(cov_below ca hlow).1 ⟨x, hx, x1, x2⟩, (cov_below cb hlow).1 ⟨y, hy, y1, y2⟩⟩
    · left
      have good : ∀ p q : Cut, CanonicalCut p → CanonicalCut q → CanonicalCut (max p q) ∧ CanonicalCut (min p q) := by
        intro p q hp hq
        rcases le_total p q with e | e
        · rw [max_eq_right e, min_eq_left e]; exact ⟨hq, hp⟩
        · rw [max_eq_left e, min_eq_right e]; exact ⟨hp, hq⟩
      have gl := (good _ _ (good _ _ (ca x hx).lo (cb y hy).lo).1 (.inr (.inr ⟨_, false, least_canonical, rfl⟩))).1
      obtain ⟨v, hv, v1, v2⟩ := exists_canonical_between_cuts gl (good _ _ (ca x hx).hi (cb y hy).hi).2 (le_max_right _ _)
        (lt_of_le_of_lt (max_le (max_le x1 y1) (not_lt.1 hlow)) (lt_min x2 y2))
      exact ⟨_, v, parse_short hv, ⟨x, hx, le_trans (le_trans (le_max_left _ _) (le_max_left _ _)) v1, lt_of_lt_of_le v2 (min_le_left _ _)⟩,
        ⟨y, hy, le_trans (le_trans (le_max_right _ _) (le_max_left _ _)) v1, lt_of_lt_of_le v2 (min_le_right _ _)⟩⟩
  · rintro (⟨s, v, -, h1, h2⟩ | ⟨h1, h2⟩)
    · exact ⟨_, h1, h2⟩
    · exact ⟨⊥, (cov_below ca (bot_lt_cutAt _ _)).2 h1, (cov_below cb (bot_lt_cutAt _ _)).2 h2⟩

example : ((VSet.parse 5 "^1.2".toList).bind fun x => (VSet.parse 5 "~1.4".toList).bind fun y => .ok (x.intersects y)) = .ok true ∧
    ((VSet.parse 5 "^1.2".toList).bind fun x => (VSet.parse 5 "> 2".toList).bind fun y => .ok (x.intersects y)) = .ok false := by decide +kernel

/-- C67. Every set that a string denotes is of this kind. -/
theorem C67_parsed (lim : Nat) (s : PyStr) (x : VSet) (h : VSet.parse lim s = .ok x) : x.Normal ∧ x.Canonical :=
  parsed_canonical h

example : ∃ x, VSet.parse 5 "< 1 || 3.x".toList = .ok x ∧ x.Normal ∧ x.Canonical :=
  ⟨.union [exRange none (some [1]) false, exRange (some [3, 0]) (some [4, 0])], by decide +kernel, C67_parsed 5 "< 1 || 3.x".toList _ (by decide +kernel)⟩

/-- C67. Two strings denote `==` sets iff the sets contain the same versions that strings can denote, and both or neither
have no lower end. -/
theorem C67_strings (lim : Nat) (s t : PyStr) (x y : VSet) (hs : VSet.parse lim s = .ok x) (ht : VSet.parse lim t = .ok y) :
    x.eq y = true ↔ (∀ u v, Version.parse u = .ok v → (x.contains v = true ↔ y.contains v = true)) ∧ (x.Bottomless ↔ y.Bottomless) := by
  obtain ⟨nx, cx⟩ := parsed_canonical hs
  obtain ⟨ny, cy⟩ := parsed_canonical ht
  rw [C67_eq x y nx ny cx cy]
  simp only [vset_contains_iff_mem]

/-- `~= 1.2` and `>= 1.2, < 2 || == 1.5` are `==`; `> 1.2` and `>= 1.2` are told apart by 1.2. -/
example : ((VSet.parse 5 "~= 1.2".toList).bind fun x => (VSet.parse 5 ">= 1.2, < 2 || == 1.5".toList).bind fun y => .ok (x.eq y)) = .ok true ∧
    ((VSet.parse 5 "> 1.2".toList).bind fun x => (VSet.parse 5 ">= 1.2".toList).bind fun y => .ok (x.eq y)) = .ok false ∧
    ((VSet.parse 5 "> 1.2".toList).bind fun x => (Version.parse "1.2".toList).bind fun v => .ok (x.contains v)) = .ok false ∧
    ((VSet.parse 5 ">= 1.2".toList).bind fun x => (Version.parse "1.2".toList).bind fun v => .ok (x.contains v)) = .ok true := by
  decide +kernel

/-- `<= 1` and `>= 1` intersect in 1; `< 1` and `> 1` do not intersect; `>= 1` includes `~= 1.2`. -/
example : ((VSet.parse 5 "<= 1".toList).bind fun x => (VSet.parse 5 ">= 1".toList).bind fun y => .ok (x.intersects y)) = .ok true ∧
    ((VSet.parse 5 "< 1".toList).bind fun x => (VSet.parse 5 "> 1".toList).bind fun y => .ok (x.intersects y)) = .ok false ∧
    ((VSet.parse 5 ">= 1".toList).bind fun x => (VSet.parse 5 "~= 1.2".toList).bind fun y => .ok (x.includes y)) = .ok true := by
  decide +kernel

/-- C67, violation. `>= 0.dev0` holds every version that a string can denote, but it is not the universal set, and `< 0.dev0`
holds none of them, but is not the empty set. -/
theorem C67_violation : ∃ a b : VSet, (∀ lim, VSet.parse lim ">= 0.dev0".toList = .ok a) ∧ (∀ lim, VSet.parse lim "< 0.dev0".toList = .ok b) ∧
    (∀ s v, Version.parse s = .ok v → a.contains v = true ∧ b.contains v = false) ∧
    a.isUniversal = false ∧ a.eq VSet.universal = false ∧ b.isEmpty = false ∧ b.eq .empty = false := by
  refine ⟨.item (.range ⟨some leastVersion, none, true, false⟩), .item (.range ⟨none, some leastVersion, false, false⟩), fun lim => ?_,
    fun lim => ?_, fun s v h => ?_, by decide, by decide, by decide, by decide⟩
  · unfold VSet.parse
    rw [show Specifier.parse ">= 0.dev0".toList = .ok (.one ⟨.greaterOrEqual, leastVersion⟩) by rfl]
    rfl
  · unfold VSet.parse
    rw [show Specifier.parse "< 0.dev0".toList = .ok (.one ⟨.less, leastVersion⟩) by rfl]
    rfl
  · have hle := least_le (parse_canonical h)
    obtain ⟨h2, -, -, h4⟩ := simple_contains leastVersion v
    constructor
    · exact h4.trans ((vge_iff _ _).2 hle)
    · rw [← Bool.not_eq_true]
      intro hc
      exact absurd ((vlt_iff _ _).1 (h2.symm.trans hc)) (not_lt.2 hle)

example : VSet.parse 5 ">= 0.dev0".toList = .ok (.item (.range ⟨some (exVersion [0] none none (some ⟨"dev".toList, 0⟩)), none, true, false⟩)) ∧
    (exRange none (some [0]) false).Mem (exVersion [-1]) := by decide +kernel

end Verif
