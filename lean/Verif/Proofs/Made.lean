import Verif.Proofs.SetLevel2
/-!
# Ranges as the constructor accepts them, including empty ones and ranges that are single versions
-/
set_option linter.unusedSimpArgs false

namespace Verif
open scoped Verif

/-- The range or point is one that the constructors accept. -/
def Item.Made : Item → Prop
  | .range r => Item.mkRange r.min r.max r.includeMin r.includeMax = .ok (.range r)
  | .point _ => True

theorem mkRange_iff (mn mx : Option Version) (a b : Bool) (i : Item) : Item.mkRange mn mx a b = .ok i ↔
    i = .range ⟨mn, mx, a, b⟩ ∧ (mn = none → a = false) ∧ (mx = none → b = false) ∧ ∀ x y, mn = some x → mx = some y → x.key ≤ y.key := by
  unfold Item.mkRange
  simp only [egt_iff]
  unfold Item.comparableMin Item.comparableMax
  simp only [Item.min, Item.max, Item.fields]
  cases mn <;> cases mx
  · cases a <;> cases b <;> simp [not_lt_of_gt (extKey_negInf_lt_posInf Version.key), eq_comm]
  · rename_i y
    cases a <;> simp [not_lt_of_gt (extKey_negInf_lt_fin Version.key y), eq_comm]
  · rename_i x
    cases b <;> simp [not_lt_of_gt (extKey_fin_lt_posInf Version.key x), eq_comm]
  · rename_i x y
    simp only [ext_fin_lt, Option.isNone_some, Bool.false_and, Bool.false_eq_true, if_false]
    by_cases h : y.key < x.key
    · rw [if_pos h]
      simp only [reduceCtorEq, Option.some.injEq, forall_eq', false_iff]
      rintro ⟨-, -, -, h'⟩
      exact absurd (h' x y rfl rfl) (not_le_of_gt h)
    · rw [if_neg h]
      simp only [Except.ok.injEq, reduceCtorEq, false_implies, true_and, Option.some.injEq]
      constructor
      · rintro rfl
        refine ⟨rfl, ?_⟩
        rintro _ _ rfl rfl
        exact not_lt.1 h
      · rintro ⟨rfl, -⟩; rfl

theorem made_iff (r : VRange) : (Item.range r).Made ↔ (r.min = none → r.includeMin = false) ∧ (r.max = none → r.includeMax = false) ∧
    ∀ x y, r.min = some x → r.max = some y → x.key ≤ y.key := by
  show Item.mkRange r.min r.max r.includeMin r.includeMax = .ok (.range r) ↔ _
  rw [mkRange_iff]
  simp

theorem Item.Made.endsOk {i : Item} (h : i.Made) : i.EndsOk := by
  cases i with
  | range r => rw [made_iff] at h; exact ⟨h.1, h.2.1⟩
  | point v => constructor <;> intro h <;> simp [Item.min, Item.max, Item.fields] at h

theorem Item.Normal.made {i : Item} (h : i.Normal) : i.Made := by
  cases i with
  | range r =>
    rw [made_iff]
    exact ⟨h.1, h.2.1, fun x y hx hy => ((vlt_iff _ _).1 (h.2.2 x y hx hy)).le⟩
  | point v => trivial

theorem mkRange_made {mn mx : Option Version} {a b : Bool} {i : Item} (h : Item.mkRange mn mx a b = .ok i) : i.Made := by
  obtain ⟨rfl, -⟩ := (mkRange_iff _ _ _ _ _).1 h
  exact h

theorem made_isEmpty {i : Item} (h : i.Made) : i.isEmpty = true ↔ i.hi ≤ i.lo := by
  cases i with
  | point v =>
    simp only [Item.isEmpty, Bool.false_eq_true, false_iff, not_le]
    exact (show (Item.point v).Normal from trivial).lo_lt_hi
  | range r =>
    rw [made_iff] at h
    obtain ⟨mn, mx, a, b⟩ := r
    obtain ⟨h1, h2, h3⟩ := h
    simp only [Item.isEmpty, Item.isEmptyOrPoint, Bool.and_eq_true, eeq_iff, Item.comparableMin, Item.comparableMax, Item.isClosed, Item.includeMin,
      Item.includeMax, Item.min, Item.max, Item.fields, Item.hi, Item.lo, hiOf, loOf] at *
    cases mn <;> cases mx
    · simp [(extKey_negInf_lt_posInf Version.key).ne, bot_lt_top_cut]
    · rename_i y; simp [(extKey_negInf_lt_fin Version.key y).ne, (bot_lt_cutAt y _).ne']
    · rename_i x; simp [(extKey_fin_lt_posInf Version.key x).ne, (cutAt_lt_top x _).ne]
    · rename_i x y
      have := h3 x y rfl rfl
      simp only [ext_fin_eq, cutAt_le]
      rcases this.lt_or_eq with h | h
      · simp [h.ne, h.ne', not_lt_of_gt h]
      · cases a <;> cases b <;> simp [h]

theorem made_isPoint {i : Item} (h : i.Made) : i.isPoint = true ↔ ∃ v, i.lo = cutAt v false ∧ i.hi = cutAt v true := by
  cases i with
  | point v =>
    simp only [Item.isPoint, true_iff]
    exact ⟨v, rfl, rfl⟩
  | range r =>
    rw [made_iff] at h
    obtain ⟨mn, mx, a, b⟩ := r
    obtain ⟨h1, h2, h3⟩ := h
    simp only [Item.isPoint, Item.isEmptyOrPoint, Bool.and_eq_true, eeq_iff, Item.comparableMin, Item.comparableMax, Item.isClosed, Item.includeMin,
      Item.includeMax, Item.min, Item.max, Item.fields, Item.hi, Item.lo, hiOf, loOf] at *
    cases mn <;> cases mx
    · simp [(extKey_negInf_lt_posInf Version.key).ne, (bot_lt_cutAt _ _).ne]
    · rename_i y; simp [(extKey_negInf_lt_fin Version.key y).ne, (bot_lt_cutAt _ _).ne]
    · rename_i x; simp [(extKey_fin_lt_posInf Version.key x).ne, (cutAt_lt_top _ _).ne']
    · rename_i x y
      simp only [ext_fin_eq, cutAt_eq]
      constructor
      · rintro ⟨e, rfl, rfl⟩; exact ⟨x, ⟨rfl, rfl⟩, e.symm, rfl⟩
      · rintro ⟨v, ⟨e1, e2⟩, e3, e4⟩
        refine ⟨e1.trans e3.symm, ?_, e4⟩
        cases a <;> simp_all

theorem made_version {i : Item} {v : Version} (h1 : i.lo = cutAt v false) (h2 : i.hi = cutAt v true) (hm : i.Made) :
    ∃ w, i.version = .ok w ∧ w.key = v.key := by
  cases i with
  | point w =>
    refine ⟨w, rfl, ?_⟩
    have : cutAt w (!true) = cutAt v false := h1
    exact ((cutAt_eq _ _ _ _).1 this).1
  | range r =>
    have hp := (made_isPoint hm).2 ⟨v, h1, h2⟩
    obtain ⟨mn, mx, a, b⟩ := r
    simp only [Item.version, hp, if_true, Item.versionUnchecked, Item.min, Item.fields]
    cases mn with
    | none => exact absurd h1 (bot_lt_cutAt _ _).ne
    | some x => exact ⟨x, rfl, ((cutAt_eq _ _ _ _).1 h1).1⟩

theorem two_versions {c d : Cut} (hc : GoodCut c) (hd : GoodCut d) (h : c < d) (hp : ∀ v, ¬ (c = cutAt v false ∧ d = cutAt v true)) :
    ∃ v w : Version, v.Wf ∧ w.Wf ∧ (c ≤ cut v ∧ cut v < d) ∧ (c ≤ cut w ∧ cut w < d) ∧ v.key < w.key := by
  obtain ⟨v, hv, v1, v2⟩ := exists_between hc hd h
  have h3 : cutAt v true ≤ d := by
    rcases hd with rfl | rfl | ⟨b, y, hb, rfl⟩
    · exact absurd v2 not_lt_bot
    · exact (cutAt_lt_top _ _).le
    · have := (cutAt_lt v b false y).1 v2
      rw [cutAt_le]
      rcases this with h | ⟨h, -, h'⟩
      · exact .inl h
      · exact .inr ⟨h, fun _ => h'⟩
  rcases h3.lt_or_eq with h3 | h3
  · obtain ⟨w, hw, w1, w2⟩ := exists_between (c := cutAt v true) (.inr (.inr ⟨v, true, hv, rfl⟩)) hd h3
    refine ⟨v, w, hv, hw, ⟨v1, v2⟩, ⟨?_, w2⟩, ?_⟩
    · exact v1.trans (((cutAt_le _ _ _ _).2 (.inr ⟨rfl, by simp⟩)).trans w1)
    · rcases (cutAt_le _ _ _ _).1 w1 with h | ⟨-, h⟩
      · exact h
      · simp at h
  · have h4 : c < cut v := by
      rcases v1.lt_or_eq with h | h
      · exact h
      · exact absurd ⟨h, h3.symm⟩ (hp v)
    obtain ⟨w, hw, w1, w2⟩ := exists_between hc (d := cut v) (.inr (.inr ⟨v, false, hv, rfl⟩)) h4
    refine ⟨w, v, hw, hv, ⟨w1, w2.trans v2⟩, ⟨v1, v2⟩, ?_⟩
    rcases (cutAt_lt _ _ _ _).1 w2 with h | ⟨-, -, h⟩
    · exact h
    · cases h

/-- Intersection of ranges as made. -/
theorem intersectionItem_made {a b : Item} (ha : a.Made) (hb : b.Made) :
    ∃ s, a.intersectionItem b = .ok s ∧ (∀ i, s.Has i → i.Made) ∧ ∀ v, s.Mem v ↔ a.Mem v ∧ b.Mem v := by
  cases a with
  | point v =>
    cases b with
    | point w =>
      refine ⟨_, rfl, ?_, fun u => ?_⟩
      · intro i hi; split at hi
        · cases hi; trivial
        · cases hi
      · split
        · rename_i h
          simp only [Item.contains, veq_iff] at h
          simp only [VSet.Mem, Item.Mem, veq_iff, h, and_self]
        · rename_i h
          simp only [Item.contains, veq_iff] at h
          simp only [VSet.Mem, Item.Mem, veq_iff, false_iff, not_and]
          intro h1 h2; exact h (h2.trans h1.symm)
    | range s =>
      refine ⟨_, rfl, ?_, fun u => ?_⟩
      · intro i hi; split at hi
        · cases hi; trivial
        · cases hi
      · have key : ∀ u, (Item.point v).Mem u → ((Item.range s).Mem u ↔ (Item.range s).contains v = true) := by
          intro u hu
          rw [contains_iff_mem, mem_iff_cut, mem_iff_cut, cut, cut]
          simp only [Item.Mem, veq_iff] at hu
          have : cutAt v false = cutAt u false := by rw [cutAt_eq]; exact ⟨hu, rfl⟩
          rw [this]
        split
        · rename_i h
          constructor
          · intro hu; exact ⟨hu, (key u hu).2 h⟩
          · exact fun hu => hu.1
        · rename_i h
          simp only [VSet.Mem, false_iff, not_and]
          intro h1 h2; exact h ((key u h1).1 h2)
  | range r =>
    cases b with
    | point v =>
      refine ⟨_, rfl, ?_, fun u => ?_⟩
      · intro i hi; split at hi
        · cases hi; trivial
        · cases hi
      · have key : ∀ u, (Item.point v).Mem u → ((Item.range r).Mem u ↔ (Item.range r).contains v = true) := by
          intro u hu
          rw [contains_iff_mem, mem_iff_cut, mem_iff_cut, cut, cut]
          simp only [Item.Mem, veq_iff] at hu
          have : cutAt v false = cutAt u false := by rw [cutAt_eq]; exact ⟨hu, rfl⟩
          rw [this]
        split
        · rename_i h
          constructor
          · intro hu; exact ⟨(key u hu).2 h, hu⟩
          · exact fun hu => hu.2
        · rename_i h
          simp only [VSet.Mem, false_iff, not_and]
          intro h1 h2; exact h ((key u h2).1 h1)
    | range s =>
      have ea := ha.endsOk
      have eb := hb.endsOk
      obtain ⟨mn, imn, hmn⟩ : ∃ mn imn, (if (Item.range r).isLower (.range s) = true then (s.min, s.includeMin) else (r.min, r.includeMin)) = (mn, imn) := ⟨_, _, rfl⟩
      obtain ⟨mx, imx, hmx⟩ : ∃ mx imx, (if (Item.range r).isHigher (.range s) = true then (s.max, s.includeMax) else (r.max, r.includeMax)) = (mx, imx) := ⟨_, _, rfl⟩
      have hlo : loOf mn imn = max (Item.range r).lo (Item.range s).lo := by
        by_cases h : (Item.range r).isLower (.range s) = true
        · rw [if_pos h] at hmn; cases hmn
          rw [isLower_iff ea eb] at h
          rw [max_eq_right h.le]; rfl
        · rw [if_neg h] at hmn; cases hmn
          rw [isLower_iff ea eb, not_lt] at h
          rw [max_eq_left h]; rfl
      have hhi : hiOf mx imx = min (Item.range r).hi (Item.range s).hi := by
        by_cases h : (Item.range r).isHigher (.range s) = true
        · rw [if_pos h] at hmx; cases hmx
          rw [isHigher_iff ea eb] at h
          rw [min_eq_right h.le]; rfl
        · rw [if_neg h] at hmx; cases hmx
          rw [isHigher_iff ea eb, not_lt] at h
          rw [min_eq_left h]; rfl
      have hmem : ∀ i : Item, i.lo = loOf mn imn → i.hi = hiOf mx imx → ∀ v, i.Mem v ↔ (Item.range r).Mem v ∧ (Item.range s).Mem v := by
        intro i h1 h2 v
        simp only [mem_iff_cut, h1, h2, hlo, hhi, sup_le_iff, lt_inf_iff]
        tauto
      by_cases c1 : ((Item.range r).isLower (.range s) && (Item.range r).isStrictlyLower (.range s)) = true
      · refine ⟨.empty, by simp only [Item.intersectionItem, c1, if_true], (by intro i h; cases h), fun v => ?_⟩
        rw [Bool.and_eq_true, isStrictlyLower_iff ea eb] at c1
        simp only [VSet.Mem, false_iff, mem_iff_cut]
        rintro ⟨h1, h2⟩
        exact absurd (lt_of_lt_of_le h1.2 (c1.2.trans h2.1)) (lt_irrefl _)
      by_cases c2 : (!(Item.range r).isLower (.range s) && (Item.range r).isStrictlyHigher (.range s)) = true
      · refine ⟨.empty, by simp only [Item.intersectionItem, c1, c2, if_true, if_false, Bool.false_eq_true], (by intro i h; cases h), fun v => ?_⟩
        rw [Bool.and_eq_true, isStrictlyHigher_iff ea eb] at c2
        simp only [VSet.Mem, false_iff, mem_iff_cut]
        rintro ⟨h1, h2⟩
        exact absurd (lt_of_lt_of_le h2.2 (c2.2.trans h1.1)) (lt_irrefl _)
      -- the ends are in order
      have hok : Item.mkRange mn mx imn imx = .ok (.range ⟨mn, mx, imn, imx⟩) := by
        rw [mkRange_iff]
        rw [made_iff] at ha hb
        refine ⟨rfl, ?_, ?_, ?_⟩
        · split at hmn <;> cases hmn
          · exact hb.1
          · exact ha.1
        · split at hmx <;> cases hmx
          · exact hb.2.1
          · exact ha.2.1
        · have cross : ∀ (p q : VRange), (Item.range p).EndsOk → (Item.range q).EndsOk → ¬ (Item.range p).isStrictlyLower (.range q) = true →
              ∀ x y, q.min = some x → p.max = some y → x.key ≤ y.key := by
            intro p q hp hq h x y hx hy
            rw [isStrictlyLower_iff hp hq] at h
            simp only [Item.hi, Item.lo, Item.max, Item.min, Item.fields, hx, hy, hiOf, loOf, not_le, cutAt_lt] at h
            rcases h with h | h
            · exact h.le
            · exact h.1.le
          split at hmn <;> split at hmx <;> cases hmn <;> cases hmx
          · exact hb.2.2
          · rename_i h _
            exact cross r s ea eb (fun h' => c1 (by rw [h, h']; rfl))
          · rename_i h _
            rw [Bool.not_eq_true] at h
            refine cross s r eb ea (fun h' => c2 ?_)
            rw [isStrictlyLower_iff eb ea, ← isStrictlyHigher_iff ea eb] at h'
            rw [h, h']; rfl
          · exact ha.2.2
      have hmade : (Item.range ⟨mn, mx, imn, imx⟩).Made := hok
      have hexp : (Item.range r).intersectionItem (.range s) = (do
          let intersection ← Item.mkRange mn mx imn imx
          if intersection.isPoint then do .ok (.item (.point (← intersection.version))) else .ok (.item intersection)) := by
        simp only [Item.intersectionItem, c1, c2, if_false, Bool.false_eq_true]
        simp only [Item.min, Item.max, Item.includeMin, Item.includeMax, Item.fields, hmn, hmx]
      rw [hexp, hok]
      by_cases hp : (Item.range ⟨mn, mx, imn, imx⟩).isPoint = true
      · obtain ⟨v, v1, v2⟩ := (made_isPoint hmade).1 hp
        obtain ⟨w, w1, w2⟩ := made_version v1 v2 hmade
        refine ⟨.item (.point w), ?_, (by intro i hi; cases hi; trivial), fun u => ?_⟩
        · show (if (Item.range ⟨mn, mx, imn, imx⟩).isPoint = true then _ else _) = _
          rw [if_pos hp, w1]; rfl
        · refine hmem (.point w) ?_ ?_ u
          · show cutAt w (!true) = _
            have : loOf mn imn = cutAt v false := v1
            rw [this, cutAt_eq]; exact ⟨w2, rfl⟩
          · show cutAt w true = _
            have : hiOf mx imx = cutAt v true := v2
            rw [this, cutAt_eq]; exact ⟨w2, rfl⟩
      · refine ⟨.item (.range ⟨mn, mx, imn, imx⟩), ?_, (by intro i hi; cases hi; exact hmade), fun u => hmem (.range ⟨mn, mx, imn, imx⟩) rfl rfl u⟩
        show (if (Item.range ⟨mn, mx, imn, imx⟩).isPoint = true then _ else _) = _
        rw [if_neg hp]

end Verif
