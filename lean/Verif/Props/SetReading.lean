import Verif.Proofs.SetInjective
import Verif.Props.SetStrings
import Verif.Props.SetPredicates
/-!
# C93: which version sets are read back from their strings
-/

namespace Verif
open scoped Verif

/-- The set is a union of items which leaves out exactly the versions equal to `v`. -/
def VSet.Excludes (x : VSet) (v : Version) : Prop :=
  (∃ items, x = .union items) ∧ v.Wf ∧ ∀ w : Version, w.Wf → (x.Mem w ↔ ¬ w ==ₚ v)

/-- What `exclude_version` has to do with the versions left out. -/
theorem exclude_cases {x : VSet} (hx : x.Normal) (hc : AllEnds Version.Canonical x.extract) :
    (∃ items v, x = .union items ∧ VSet.excludeVersion 0 items = .ok (some v) ∧ x.Excludes v ∧ v.Canonical) ∨
      ((∀ items, x = .union items → VSet.excludeVersion 0 items = .ok none) ∧ ¬ ∃ v, x.Excludes v) := by
  cases x with
  | empty => exact .inr ⟨by rintro _ ⟨⟩, by rintro ⟨v, ⟨_, h⟩, -⟩; cases h⟩
  | item i => exact .inr ⟨by rintro _ ⟨⟩, by rintro ⟨v, ⟨_, h⟩, -⟩; cases h⟩
  | union items =>
    have hw : (VSet.union items).Wf := (wf_iff _).2 fun i hi => ⟨fun v hv => ((hc i hi).1 v hv).wf, fun v hv => ((hc i hi).2 v hv).wf⟩
    obtain ⟨o, h1, h2, h3⟩ := C55_exclude_version items hx hw
    cases o with
    | some v =>
      have hv : v.Canonical := exclude_ends (h1 0) hc
      exact .inl ⟨items, v, rfl, h1 0, ⟨⟨items, rfl⟩, hv.wf, fun w _ => h2 v rfl w⟩, hv⟩
    | none =>
      refine .inr ⟨by rintro _ ⟨⟩; exact h1 0, ?_⟩
      rintro ⟨v, -, hv, h⟩
      exact h3 rfl ⟨v, hv, h⟩

theorem excludes_pre {x : VSet} {v w : Version} (hv : x.Excludes v) (hw : x.Excludes w) : v.pre = w.pre := by
  have h1 := hv.2.2 v hv.2.1
  have h2 := hw.2.2 v hv.2.1
  have e : v ==ₚ v := by rw [veq_iff]
  have : v ==ₚ w := by
    by_contra h
    exact (h1.1 (h2.2 h)) e
  exact ((C02_eq_iff v w hv.2.1.valid hw.2.1.valid).1 this).2.2.1

/-- C93. The short string of a set in normal form which is not empty, with canonical ends, is read as an equal set if the set
leaves out exactly one version or no end of its ranges has a local segment, and otherwise fails to be read. -/
theorem C93_short (x : VSet) (hx : x.Normal) (hne : x ≠ .empty) (hc : ∀ i, x.Has i → ∀ v, i.min = some v ∨ i.max = some v → v.Canonical) :
    ∃ s, (∀ lim, x.toShortStr lim = .ok s) ∧
      (((∃ v, x.Excludes v) ∨ ∀ r, x.Has (.range r) → ∀ v, r.min = some v ∨ r.max = some v → v.local_ = none) →
        ∃ y, (∀ lim, VSet.parse (lim + 2) s = .ok y) ∧ y.Normal ∧ y.eq x = true) ∧
      (¬ ((∃ v, x.Excludes v) ∨ ∀ r, x.Has (.range r) → ∀ v, r.min = some v ∨ r.max = some v → v.local_ = none) →
        ∀ lim, VSet.parse lim s = .error .parseSpecificationError) := by
  have hc' : AllEnds Version.Canonical x.extract :=
    fun i hi => ⟨fun v hv => hc i ((has_iff _ _).2 hi) v (.inl hv), fun v hv => hc i ((has_iff _ _).2 hi) v (.inr hv)⟩
  obtain ⟨s, hs⟩ := set_text shortPrinter hx hne
  refine ⟨s, set_short_text hx hs, fun h => ?_, fun h lim => ?_⟩
  · have : ∃ t y, Specifier.parse s = .ok t ∧ (∀ lim, Specifier.toSet (lim + 2) t = .ok y) ∧ y.Normal ∧ y.eq x = true := by
      apply text_reads shortPrinter_good hx hs
      rcases exclude_cases hx hc' with ⟨items, v, e, h1, h2, h3⟩ | ⟨h1, h2⟩
      · exact .inl ⟨items, v, e, h1, h3⟩
      · refine .inr ⟨h1, fun i hi => ?_⟩
        have hr := h.resolve_left h2
        cases i with
        | point v => exact hc _ hi v (.inl rfl)
        | range r =>
          exact ⟨fun v hv => ⟨hc _ hi v (.inl hv), hr r hi v (.inl hv)⟩, fun v hv => ⟨hc _ hi v (.inr hv), hr r hi v (.inr hv)⟩⟩
    obtain ⟨t, y, h1, h2, h3, h4⟩ := this
    exact ⟨y, fun lim => by simp only [VSet.parse, h1, bind, Except.bind, h2], h3, h4⟩
  · rw [not_or] at h
    have : Specifier.parse s = .error .parseSpecificationError := by
      apply text_fails shortPrinter_good shortPrinter_bad hs hc'
      rcases exclude_cases hx hc' with ⟨items, v, e, h1, h2, h3⟩ | ⟨h1, h2⟩
      · exact absurd ⟨v, h2⟩ h.1
      · refine .inr ⟨h1, ?_⟩
        by_contra hall
        apply h.2
        intro r hr v hv
        have hok : shortPrinter.Ok (.range r) := by
          by_contra hn
          exact hall ⟨_, hr, hn⟩
        rcases hv with hv | hv
        · exact (hok.1 v hv).2
        · exact (hok.2 v hv).2
    simp only [VSet.parse, this, bind, Except.bind]

example : (exVersion [1] none none none (some ⟨[.int 2]⟩)).toShortStr = "1+2".toList ∧
    VSet.parse 5 "!=1+2".toList = .ok (.union [.range ⟨none, some (exVersion [1] none none none (some ⟨[.int 2]⟩)), false, false⟩,
      .range ⟨some (exVersion [1] none none none (some ⟨[.int 2]⟩)), none, false, false⟩]) ∧
    (VSet.union [exPoint [0], .range ⟨some (exVersion [1] none none none (some ⟨[.int 2]⟩)), none, false, false⟩]).toShortStr 5 = .ok "0||>1+2".toList ∧
    VSet.parse 5 "0||>1+2".toList = .error .parseSpecificationError := by
  decide +kernel

/-- C93. The string is read as an equal set iff moreover no version in it has a candidate tag. -/
theorem C93_long (x : VSet) (hx : x.Normal) (hne : x ≠ .empty) (hc : ∀ i, x.Has i → ∀ v, i.min = some v ∨ i.max = some v → v.Canonical) :
    ∃ s, (∀ lim, x.toStr lim = .ok s) ∧
      (((∃ v, x.Excludes v ∧ NoCandidate v) ∨ (¬ ∃ v, x.Excludes v) ∧ (∀ i, x.Has i → ∀ v, i.min = some v ∨ i.max = some v → NoCandidate v) ∧
          ∀ r, x.Has (.range r) → ∀ v, r.min = some v ∨ r.max = some v → v.local_ = none) →
        ∃ y, (∀ lim, VSet.parse (lim + 2) s = .ok y) ∧ y.Normal ∧ y.eq x = true) ∧
      (¬ ((∃ v, x.Excludes v ∧ NoCandidate v) ∨ (¬ ∃ v, x.Excludes v) ∧ (∀ i, x.Has i → ∀ v, i.min = some v ∨ i.max = some v → NoCandidate v) ∧
          ∀ r, x.Has (.range r) → ∀ v, r.min = some v ∨ r.max = some v → v.local_ = none) →
        ∀ lim, VSet.parse lim s = .error .parseSpecificationError) := by
  have hc' : AllEnds Version.Canonical x.extract :=
    fun i hi => ⟨fun v hv => hc i ((has_iff _ _).2 hi) v (.inl hv), fun v hv => hc i ((has_iff _ _).2 hi) v (.inr hv)⟩
  obtain ⟨s, hs⟩ := set_text longPrinter hx hne
  refine ⟨s, set_long_text hx hs, fun h => ?_, fun h lim => ?_⟩
  · have : ∃ t y, Specifier.parse s = .ok t ∧ (∀ lim, Specifier.toSet (lim + 2) t = .ok y) ∧ y.Normal ∧ y.eq x = true := by
      apply text_reads longPrinter_good hx hs
      rcases exclude_cases hx hc' with ⟨items, v, e, h1, h2, h3⟩ | ⟨h1, h2⟩
      · refine .inl ⟨items, v, e, h1, h3, ?_⟩
        rcases h with ⟨w, hw, hn⟩ | ⟨h, -⟩
        · intro t ht
          exact hn t (excludes_pre hw h2 ▸ ht)
        · exact absurd ⟨v, h2⟩ h
      · refine .inr ⟨h1, fun i hi => ?_⟩
        rcases h with ⟨w, hw, hn⟩ | ⟨-, hn, hr⟩
        · exact absurd ⟨w, hw⟩ h2
        · cases i with
          | point v => exact ⟨hc _ hi v (.inl rfl), hn _ hi v (.inl rfl)⟩
          | range r =>
            exact ⟨fun v hv => ⟨hc _ hi v (.inl hv), hn _ hi v (.inl hv), hr r hi v (.inl hv)⟩,
              fun v hv => ⟨hc _ hi v (.inr hv), hn _ hi v (.inr hv), hr r hi v (.inr hv)⟩⟩
    obtain ⟨t, y, h1, h2, h3, h4⟩ := this
    exact ⟨y, fun lim => by simp only [VSet.parse, h1, bind, Except.bind, h2], h3, h4⟩
  · rw [not_or] at h
    have : Specifier.parse s = .error .parseSpecificationError := by
      apply text_fails longPrinter_good longPrinter_bad hs hc'
      rcases exclude_cases hx hc' with ⟨items, v, e, h1, h2, h3⟩ | ⟨h1, h2⟩
      · exact .inl ⟨items, v, e, h1, fun hq => h.1 ⟨v, h2, hq.2⟩⟩
      · refine .inr ⟨h1, ?_⟩
        by_contra hall
        have hok : ∀ i, x.Has i → longPrinter.Ok i := by
          intro i hi
          by_contra hn
          exact hall ⟨_, hi, hn⟩
        refine h.2 ⟨h2, fun i hi v hv => ?_, fun r hr v hv => ?_⟩
        · have := hok i hi
          cases i with
          | point w =>
            have e : w = v := by rcases hv with hv | hv <;> simpa [Item.min, Item.max, Item.fields] using hv
            exact e ▸ this.2
          | range r =>
            rcases hv with hv | hv
            · exact (this.1 v hv).2.1
            · exact (this.2 v hv).2.1
        · have := hok _ hr
          rcases hv with hv | hv
          · exact (this.1 v hv).2.2
          · exact (this.2 v hv).2.2
    simp only [VSet.parse, this, bind, Except.bind]

example : (VSet.union [exPoint [0], .range ⟨some (exVersion [1] (some ⟨"candidate".toList, 2⟩)), none, false, false⟩]).toStr 5 =
      .ok "0 || > 1-candidate.2".toList ∧
    VSet.parse 5 "0 || > 1-candidate.2".toList = .error .parseSpecificationError ∧
    (VSet.union [exPoint [0], .range ⟨some (exVersion [1] (some ⟨"candidate".toList, 2⟩)), none, false, false⟩]).toShortStr 5 = .ok "0||>1c2".toList := by
  decide +kernel

theorem same_excluded {l m : List Item} {v : Version} (hl : (VSet.union l).Normal) (hm : (VSet.union m).Normal)
    (h1 : VSet.excludeVersion 0 l = .ok (some v)) (h2 : VSet.excludeVersion 0 m = .ok (some v)) : (VSet.union l).eq (.union m) = true := by
  have key : ∀ {l : List Item}, (VSet.union l).Normal → VSet.excludeVersion 0 l = .ok (some v) →
      ∀ c, c ≠ ⊤ → ((VSet.union l).Cov c ↔ ¬ (VSet.item (.point v)).Cov c) := by
    intro l hl h c hc
    obtain ⟨z, z1, z2, z3⟩ := complement_spec hl
    have : z = .item (.point v) := by
      simp only [VSet.excludeVersion, z1, bind, Except.bind] at h
      cases z with
      | empty => cases h
      | union _ => cases h
      | item i => cases i with
        | range _ => cases h
        | point w => cases h; rfl
    subst this
    have := z3 c
    tauto
  rw [eq_iff_cov hl hm]
  intro c
  constructor
  · intro h
    have hc : c ≠ ⊤ := cov_lt_top h
    exact (key hm h2 c hc).2 ((key hl h1 c hc).1 h)
  · intro h
    have hc : c ≠ ⊤ := cov_lt_top h
    exact (key hl h1 c hc).2 ((key hm h2 c hc).1 h)

/-- C93. Whether they are read or not, short strings determine the sets, up to `==`. -/
theorem C93_short_injective (x y : VSet) (hx : x.Normal) (hy : y.Normal) (nx : x ≠ .empty) (ny : y ≠ .empty)
    (cx : ∀ i, x.Has i → ∀ v, i.min = some v ∨ i.max = some v → v.Canonical)
    (cy : ∀ i, y.Has i → ∀ v, i.min = some v ∨ i.max = some v → v.Canonical) (m n : Nat) (h : x.toShortStr m = y.toShortStr n) : x.eq y = true := by
  have key : ∀ {x : VSet}, (∀ i, x.Has i → ∀ v, i.min = some v ∨ i.max = some v → v.Canonical) → AllEnds Version.Canonical x.extract :=
    fun h i hi => ⟨fun v hv => h i ((has_iff _ _).2 hi) v (.inl hv), fun v hv => h i ((has_iff _ _).2 hi) v (.inr hv)⟩
  obtain ⟨s, hs⟩ := set_text shortPrinter hx nx
  obtain ⟨t, ht⟩ := set_text shortPrinter hy ny
  rw [set_short_text hx hs, set_short_text hy ht] at h
  cases h
  rcases shortPrinter_inj.text_inj hx hy (key cx) (key cy) hs ht with rfl | ⟨l, k, v, rfl, rfl, h1, h2⟩
  · rw [eq_iff_cov hx hx]
    exact fun c => Iff.rfl
  · exact same_excluded hx hy (h1 0) (h2 0)

example : (VSet.union [exRange none (some [1]) false, exRange (some [1, 0]) none false]).toShortStr 5 = .ok "!=1".toList ∧
    (VSet.union [exRange none (some [1]) false, exRange (some [1]) none false]).toShortStr 5 = .ok "!=1".toList ∧
    (VSet.union [exRange none (some [1]) false, exRange (some [1, 0]) none false]).eq
      (.union [exRange none (some [1]) false, exRange (some [1]) none false]) = true := by decide +kernel

/-- C93. So do strings, without candidate tags. -/
theorem C93_long_injective (x y : VSet) (hx : x.Normal) (hy : y.Normal) (nx : x ≠ .empty) (ny : y ≠ .empty)
    (cx : ∀ i, x.Has i → ∀ v, i.min = some v ∨ i.max = some v → v.Canonical ∧ NoCandidate v)
    (cy : ∀ i, y.Has i → ∀ v, i.min = some v ∨ i.max = some v → v.Canonical ∧ NoCandidate v) (m n : Nat) (h : x.toStr m = y.toStr n) : x.eq y = true := by
  have key : ∀ {x : VSet}, (∀ i, x.Has i → ∀ v, i.min = some v ∨ i.max = some v → v.Canonical ∧ NoCandidate v) →
      AllEnds (fun v => v.Canonical ∧ NoCandidate v) x.extract :=
    fun h i hi => ⟨fun v hv => h i ((has_iff _ _).2 hi) v (.inl hv), fun v hv => h i ((has_iff _ _).2 hi) v (.inr hv)⟩
  obtain ⟨s, hs⟩ := set_text longPrinter hx nx
  obtain ⟨t, ht⟩ := set_text longPrinter hy ny
  rw [set_long_text hx hs, set_long_text hy ht] at h
  cases h
  rcases longPrinter_inj.text_inj hx hy (key cx) (key cy) hs ht with rfl | ⟨l, k, v, rfl, rfl, h1, h2⟩
  · rw [eq_iff_cov hx hx]
    exact fun c => Iff.rfl
  · exact same_excluded hx hy (h1 0) (h2 0)

example : (VSet.item (exPoint [1])).toStr 5 = .ok "1".toList ∧ (VSet.item (exPoint [1, 0])).toStr 5 = .ok "1.0".toList ∧
    (VSet.item (exPoint [1])).eq (.item (exPoint [1, 0])) = true := by decide +kernel

/-- C93. The string of the empty set is the string of one other set in normal form: that of the version 0. -/
theorem C93_empty (x : VSet) (hx : x.Normal) (hc : ∀ i, x.Has i → ∀ v, i.min = some v ∨ i.max = some v → v.Canonical) (m n : Nat) :
    x.toShortStr m = VSet.empty.toShortStr n ↔ x = .empty ∨ x = .item (exPoint [0]) := by
  have e0 : (VSet.item (exPoint [0])).toShortStr m = VSet.empty.toShortStr n := by
    show (VSet.item (exPoint [0])).toShortStr 0 = VSet.empty.toShortStr 0
    decide +kernel
  constructor
  · intro h
    by_cases hne : x = .empty
    · exact .inl hne
    · right
      obtain ⟨s, hs⟩ := set_text shortPrinter hx hne
      have ht : shortPrinter.Text (.item (exPoint [0])) (shortPrinter.item (exPoint [0])) := .inl ⟨_, rfl, rfl⟩
      have hy : (VSet.item (exPoint [0])).Normal := trivial
      rw [← e0, set_short_text hx hs, set_short_text hy ht] at h
      cases h
      have key : AllEnds Version.Canonical x.extract :=
        fun i hi => ⟨fun v hv => hc i ((has_iff _ _).2 hi) v (.inl hv), fun v hv => hc i ((has_iff _ _).2 hi) v (.inr hv)⟩
      have key' : AllEnds Version.Canonical (VSet.item (exPoint [0])).extract := by
        intro i hi
        have : i = exPoint [0] := by simpa [VSet.extract] using hi
        subst this
        have c0 : (exVersion [0]).Canonical :=
          ⟨⟨by decide, by rintro _ ⟨⟩, by rintro _ ⟨⟩, by rintro _ ⟨⟩, by rintro _ ⟨⟩⟩, by decide, by unfold Release.NonNeg; decide,
            by rintro _ ⟨⟩, by rintro _ ⟨⟩, by rintro _ ⟨⟩, by rintro _ ⟨⟩⟩
        exact ⟨by rintro _ ⟨⟩; exact c0, by rintro _ ⟨⟩; exact c0⟩
      rcases shortPrinter_inj.text_inj hx hy key key' hs ht with h | ⟨_, _, _, _, h, -⟩
      · exact h
      · cases h
  · rintro (rfl | rfl)
    · rfl
    · exact e0

example : (VSet.item (exPoint [0, 0])).toShortStr 5 = .ok "0.0".toList ∧ VSet.empty.toShortStr 5 = .ok "0".toList := by decide +kernel

/-- C93, violated for ranges that are not in normal form. The constructor accepts ranges whose ends are equal. They print as `0` if
they leave out one end, although they are empty and `0` is read as the version 0; with both ends they print as the lower end. -/
theorem C93_equal_ends (a b : Version) (h : a ==ₚ b) (i j : Bool) :
    Item.mkRange (some a) (some b) i j = .ok (.range ⟨some a, some b, i, j⟩) ∧
    (i = false ∨ j = false → (∀ v, ¬ (Item.range ⟨some a, some b, i, j⟩).Mem v) ∧
      (Item.range ⟨some a, some b, i, j⟩).toStr = .ok "0".toList ∧ (Item.range ⟨some a, some b, i, j⟩).toShortStr = .ok "0".toList) ∧
    (i = true → j = true → (Item.range ⟨some a, some b, i, j⟩).toStr = .ok a.toStr ∧
      (Item.range ⟨some a, some b, i, j⟩).toShortStr = .ok a.toShortStr) := by
  have hk := (veq_iff a b).1 h
  have he : (Item.range ⟨some a, some b, i, j⟩).isEmptyOrPoint = true := h
  refine ⟨?_, ?_, ?_⟩
  · rw [mkRange_iff]
    refine ⟨rfl, nofun, nofun, ?_⟩
    rintro x y ⟨⟩ ⟨⟩
    exact hk.le
  · intro hij
    have hc : (Item.range ⟨some a, some b, i, j⟩).isEmpty = true := by
      show ((Item.range ⟨some a, some b, i, j⟩).isEmptyOrPoint && !(i && j)) = true
      rw [he]
      rcases hij with rfl | rfl
      · rfl
      · cases i <;> rfl
    refine ⟨?_, ?_, ?_⟩
    · intro v hv
      rw [mem_iff_cut] at hv
      obtain ⟨h1, h2⟩ := hv
      have h3 : cutAt a (!i) < cutAt b j := lt_of_le_of_lt h1 h2
      rw [cutAt_lt, hk] at h3
      rcases h3 with h3 | ⟨-, h3, h4⟩
      · exact lt_irrefl _ h3
      · rcases hij with rfl | rfl
        · cases h3
        · cases h4
    · simp only [Item.toStr, hc, if_true]
    · simp only [Item.toShortStr, hc, if_true]
  · rintro rfl rfl
    have hc : (Item.range ⟨some a, some b, true, true⟩).isEmpty = false := by
      show ((Item.range ⟨some a, some b, true, true⟩).isEmptyOrPoint && !(true && true)) = false
      rw [he]; rfl
    have hp : (Item.range ⟨some a, some b, true, true⟩).isPoint = true := by
      show ((Item.range ⟨some a, some b, true, true⟩).isEmptyOrPoint && (true && true)) = true
      rw [he]; rfl
    have hv : (Item.range ⟨some a, some b, true, true⟩).version = .ok a := by
      simp only [Item.version, hp, if_true]
      rfl
    constructor
    · simp only [Item.toStr, hc, hp, hv, if_true]
      rfl
    · simp only [Item.toShortStr, hc, hp, hv, if_true]
      rfl

example : (exRange (some [3]) (some [3]) true false).toStr = .ok "0".toList ∧
    (exRange (some [3]) (some [3, 0]) true true).toStr = .ok "3".toList ∧ exVersion [3] ==ₚ exVersion [3, 0] ∧
    VSet.parse 5 "0".toList = .ok (.item (exPoint [0])) := by decide +kernel

end Verif
