import Verif.Proofs.Made
import Verif.Props.Compat
import Verif.Props.Specifiers
/-!
# Which requirements conflict (C120)
-/

namespace Verif

/-- Operators that accept no version below their own: `^`, `~`, `~=`, `==`, `=`, `>=`, and the wildcards other than `*`. -/
def Operator.Starts (o : Operator) : Prop :=
  o.type ∈ [OpType.caret, .tilde, .tildeEqual, .doubleEqual, .equal, .greaterOrEqual] ∨
    o.type ∈ [OpType.wildcardDoubleEqual, .wildcardEqual] ∧
      ¬ (o.version.pre = none ∧ o.version.post = none ∧ o.version.dev = none ∧ o.version.precision = 1)

/-- `<` and `<=`. -/
def Operator.Ends (o : Operator) : Prop := o.type ∈ [OpType.less, .lessOrEqual]

/-- The versions that the operator accepts are those from its own version on that also are in a set closed downwards. -/
theorem Operator.Starts.accepts {o : Operator} (h : o.Starts) (hv : o.version.Valid) :
    ∃ U : Version → Prop, (∀ x y, x.key ≤ y.key → U y → U x) ∧ ∀ w, o.accepts w = .ok true ↔ o.version.key ≤ w.key ∧ U w := by
  obtain ⟨t, a⟩ := o
  have hv : a.Valid := hv
  have below : ∀ (b : Version) (x y : Version), x.key ≤ y.key → y.key < b.key → x.key < b.key := fun b x y h1 h2 => lt_of_le_of_lt h1 h2
  have hp : 0 < a.release.precision := (precision_pos_iff _).2 hv.release
  have wild : (∃ w, a.nextWildcardBreaking = .ok (some w)) → ∃ U : Version → Prop, (∀ x y, x.key ≤ y.key → U y → U x) ∧
      ∀ w, Version.matchesWildcardEqual w a = .ok true ↔ a.key ≤ w.key ∧ U w := by
    rintro ⟨b, hb⟩
    refine ⟨_, below b, fun w => ?_⟩
    simp [Version.matchesWildcardEqual, hb, bind, Except.bind, vle_iff, vlt_iff]
  rcases h with h | ⟨h, hn⟩
  · simp only [List.mem_cons, List.not_mem_nil, or_false] at h
    rcases h with rfl | rfl | rfl | rfl | rfl | rfl
    · obtain ⟨b, hb, -⟩ := caret_spec hv
      exact ⟨_, below b, fun w => chained_true hb⟩
    · obtain ⟨b, hb, -⟩ := tilde_spec hv
      exact ⟨_, below b, fun w => chained_true hb⟩
    · by_cases h1 : a.release.precision = 1
      · refine ⟨fun _ => False, by simp, fun w => ?_⟩
        have e := (tildeEqual_spec hv).1 h1
        simp only [Operator.accepts, OpType.matches_, Version.matchesTildeEqual, Version.chained, e, bind, Except.bind, and_false, iff_false]
        split <;> simp
      · obtain ⟨b, hb, -⟩ := (tildeEqual_spec (v := a) hv).2 (by omega)
        exact ⟨_, below b, fun w => chained_true hb⟩
    · refine ⟨fun w => w.key ≤ a.key, fun x y h1 h2 => le_trans h1 h2, fun w => ?_⟩
      simp only [Operator.accepts, OpType.matches_, Version.matchesEqual, Except.ok.injEq, veq_iff]
      exact ⟨fun h => ⟨h.ge, h.le⟩, fun h => le_antisymm h.2 h.1⟩
    · refine ⟨fun w => w.key ≤ a.key, fun x y h1 h2 => le_trans h1 h2, fun w => ?_⟩
      simp only [Operator.accepts, OpType.matches_, Version.matchesEqual, Except.ok.injEq, veq_iff]
      exact ⟨fun h => ⟨h.ge, h.le⟩, fun h => le_antisymm h.2 h.1⟩
    · refine ⟨fun _ => True, by simp, fun w => ?_⟩
      simp [Operator.accepts, OpType.matches_, Version.matchesGreaterOrEqual, vge_iff]
  · have hb : ∃ w, a.nextWildcardBreaking = .ok (some w) := by
      obtain ⟨-, w2, w3, w4⟩ := wildcard_spec hv
      by_cases hs : a.isStable = true
      · obtain ⟨h1, h2⟩ := (stable_iff a).1 hs
        by_cases h3 : a.post = none
        · have h4 : a.release.precision ≠ 1 := fun h4 => hn ⟨h1, h3, h2, h4⟩
          obtain ⟨w, hw, -⟩ := w2 h1 h3 h2 (by omega)
          exact ⟨w, hw⟩
        · obtain ⟨w, hw, -⟩ := w3 h1 h3 h2
          exact ⟨w, hw⟩
      · obtain ⟨w, hw, -⟩ := w4 (by simpa using hs)
        exact ⟨w, hw⟩
    simp only [List.mem_cons, List.not_mem_nil, or_false] at h
    rcases h with rfl | rfl
    · exact wild hb
    · exact wild hb

theorem Operator.Ends.accepts {o : Operator} (h : o.Ends) {x y : Version} (hxy : x.key ≤ y.key) (hy : o.accepts y = .ok true) :
    o.accepts x = .ok true := by
  obtain ⟨t, a⟩ := o
  simp only [Operator.Ends, List.mem_cons, List.not_mem_nil, or_false] at h
  rcases h with rfl | rfl
  · simp only [Operator.accepts, OpType.matches_, Version.matchesLess, Except.ok.injEq, vlt_iff] at hy ⊢
    exact lt_of_le_of_lt hxy hy
  · simp only [Operator.accepts, OpType.matches_, Version.matchesLessOrEqual, Except.ok.injEq, vle_iff] at hy ⊢
    exact le_trans hxy hy

/-- One of the operators that start has the greatest version. -/
theorem exists_greatest_start : ∀ l : List Operator, (∃ m ∈ l, m.Starts) →
    ∃ m ∈ l, m.Starts ∧ ∀ o ∈ l, o.Starts → o.version.key ≤ m.version.key
  | [], h => by simp at h
  | a :: l, h => by
    by_cases hl : ∃ m ∈ l, m.Starts
    · obtain ⟨m, h1, h2, h3⟩ := exists_greatest_start l hl
      by_cases ha : a.Starts ∧ m.version.key ≤ a.version.key
      · refine ⟨a, by simp, ha.1, fun o ho hs => ?_⟩
        rcases List.mem_cons.1 ho with rfl | ho
        · exact le_rfl
        · exact le_trans (h3 o ho hs) ha.2
      · refine ⟨m, by simp [h1], h2, fun o ho hs => ?_⟩
        rcases List.mem_cons.1 ho with rfl | ho
        · exact (not_le.1 fun hc => ha ⟨hs, hc⟩).le
        · exact h3 o ho hs
    · obtain ⟨m, hm, hs⟩ := h
      rcases List.mem_cons.1 hm with rfl | hm
      · refine ⟨m, by simp, hs, fun o ho hs' => ?_⟩
        rcases List.mem_cons.1 ho with rfl | ho
        · exact le_rfl
        · exact absurd ⟨o, ho, hs'⟩ hl
      · exact absurd ⟨m, hm, hs⟩ hl

/-- C120. Requirements with `^`, `~`, `~=`, `==`, `=`, `>=`, wildcards other than `*`, `<` and `<=`, not all of them `<` or
`<=`: some version satisfies all of them iff one of the versions named in them does. It is then the least such version. -/
theorem C120_satisfiable (l : List Operator) (hv : ∀ o ∈ l, o.version.Valid) (hl : ∀ o ∈ l, o.Starts ∨ o.Ends) (h1 : ∃ m ∈ l, m.Starts) :
    (∃ w, ∀ o ∈ l, o.accepts w = .ok true) ↔
      ∃ m ∈ l, m.Starts ∧ (∀ o ∈ l, o.accepts m.version = .ok true) ∧ ∀ w, (∀ o ∈ l, o.accepts w = .ok true) → m.version ≤ₚ w := by
  constructor
  · rintro ⟨w, hw⟩
    obtain ⟨m, hm, hs, hmax⟩ := exists_greatest_start l h1
    have hle : ∀ w, (∀ o ∈ l, o.accepts w = .ok true) → m.version.key ≤ w.key := fun w hw => by
      obtain ⟨U, -, hU⟩ := hs.accepts (hv m hm)
      exact ((hU w).1 (hw m hm)).1
    refine ⟨m, hm, hs, fun o ho => ?_, fun w hw => (vle_iff _ _).2 (hle w hw)⟩
    rcases hl o ho with h | h
    · obtain ⟨U, hd, hU⟩ := h.accepts (hv o ho)
      exact (hU _).2 ⟨hmax o ho h, hd _ _ (hle w hw) ((hU w).1 (hw o ho)).2⟩
    · exact h.accepts (hle w hw) (hw o ho)
  · rintro ⟨m, -, -, h, -⟩
    exact ⟨_, h⟩

/-- `^1.2`, `~=1.4.1`, `< 1.4.5`: 1.4.1 satisfies all three, and is the least version that does. -/
example : ∃ m ∈ ([⟨.caret, exVersion [1, 2]⟩, ⟨.tildeEqual, exVersion [1, 4, 1]⟩, ⟨.less, exVersion [1, 4, 5]⟩] : List Operator),
    m.version = exVersion [1, 4, 1] ∧
      ∀ o ∈ ([⟨.caret, exVersion [1, 2]⟩, ⟨.tildeEqual, exVersion [1, 4, 1]⟩, ⟨.less, exVersion [1, 4, 5]⟩] : List Operator), o.accepts m.version = .ok true := by
  refine ⟨⟨.tildeEqual, exVersion [1, 4, 1]⟩, by simp, rfl, ?_⟩
  decide +kernel
/-- `^1.2`, `~1.3`, `>= 1.4`: none of 1.2, 1.3 and 1.4 satisfies all three, so no version does. -/
example : ¬ ∃ w, ∀ o ∈ ([⟨.caret, exVersion [1, 2]⟩, ⟨.tilde, exVersion [1, 3]⟩, ⟨.greaterOrEqual, exVersion [1, 4]⟩] : List Operator), o.accepts w = .ok true := by
  have hv : ∀ p, p ≠ [] → (exVersion p).Valid := fun p hp => exValid _ hp _ _ _ (by simp) (by simp) (by simp)
  rw [C120_satisfiable _ (by simp [hv]) (by simp [Operator.Starts]) (by simp [Operator.Starts])]
  rintro ⟨m, hm, -, h, -⟩
  revert m
  decide +kernel

/-- C120. Two of the requirements that start can be satisfied together iff the version of one satisfies the other. -/
theorem C120_two (o p : Operator) (vo : o.version.Valid) (vp : p.version.Valid) (so : o.Starts) (sp : p.Starts) :
    (∃ w, o.accepts w = .ok true ∧ p.accepts w = .ok true) ↔
      (o.accepts p.version = .ok true ∧ p.accepts p.version = .ok true) ∨ (p.accepts o.version = .ok true ∧ o.accepts o.version = .ok true) := by
  have h := C120_satisfiable [o, p] (by simp [vo, vp]) (by simp [so, sp]) ⟨o, by simp, so⟩
  constructor
  · rintro ⟨w, h1, h2⟩
    obtain ⟨m, hm, -, h3, -⟩ := h.1 ⟨w, by simp [h1, h2]⟩
    simp only [List.mem_cons, List.not_mem_nil, or_false, forall_eq_or_imp, forall_eq] at hm h3
    rcases hm with rfl | rfl
    · exact .inr h3.symm
    · exact .inl h3
  · rintro (⟨h1, h2⟩ | ⟨h1, h2⟩)
    · exact ⟨_, h1, h2⟩
    · exact ⟨_, h2, h1⟩

/-- `^1` and `>= 1.5` have `1.5` in common; `^1` and `^2` exclude each other's versions, so nothing. -/
example : (∃ w, (Operator.mk .caret (exVersion [1])).accepts w = .ok true ∧ (Operator.mk .greaterOrEqual (exVersion [1, 5])).accepts w = .ok true) ∧
    ¬ ∃ w, (Operator.mk .caret (exVersion [1])).accepts w = .ok true ∧ (Operator.mk .caret (exVersion [2])).accepts w = .ok true :=
  ⟨(C120_two _ _ (by decide +kernel) (by decide +kernel) (by simp [Operator.Starts]) (by simp [Operator.Starts])).2 (.inl (by decide +kernel)),
    fun h => absurd ((C120_two _ _ (by decide +kernel) (by decide +kernel) (by simp [Operator.Starts]) (by simp [Operator.Starts])).1 h) (by decide +kernel)⟩

/-- C120. A list of them can be satisfied together if any two of them can. -/
theorem C120_pairwise (l : List Operator) (hv : ∀ o ∈ l, o.version.Valid) (hl : ∀ o ∈ l, o.Starts ∨ o.Ends) (h1 : ∃ m ∈ l, m.Starts)
    (h : ∀ o ∈ l, ∀ p ∈ l, ∃ w, o.accepts w = .ok true ∧ p.accepts w = .ok true) : ∃ w, ∀ o ∈ l, o.accepts w = .ok true := by
  obtain ⟨m, hm, hs, hmax⟩ := exists_greatest_start l h1
  refine ⟨m.version, fun o ho => ?_⟩
  obtain ⟨w, a1, a2⟩ := h o ho m hm
  obtain ⟨U, -, hU⟩ := hs.accepts (hv m hm)
  have hle := ((hU w).1 a2).1
  rcases hl o ho with hso | he
  · obtain ⟨V, hd, hV⟩ := hso.accepts (hv o ho)
    exact (hV _).2 ⟨hmax o ho hso, hd _ _ hle ((hV w).1 a1).2⟩
  · exact he.accepts hle a1

/-- `^1` and `>= 1.5`, `>= 1.5` and `< 1.7`, `^1` and `< 1.7` can be satisfied together, so all three can; `!=1`, `>=1` and
`<=1` can be in pairs, but not all three. -/
example : (∃ w, ∀ o ∈ ([⟨.caret, exVersion [1]⟩, ⟨.greaterOrEqual, exVersion [1, 5]⟩, ⟨.less, exVersion [1, 7]⟩] : List Operator), o.accepts w = .ok true) ∧
    (∀ v, ¬ ∀ o ∈ ([⟨.notEqual, exVersion [1]⟩, ⟨.greaterOrEqual, exVersion [1]⟩, ⟨.lessOrEqual, exVersion [1]⟩] : List Operator), o.accepts v = .ok true) := by
  refine ⟨⟨exVersion [1, 6], by decide +kernel⟩, fun v h => ?_⟩
  simp only [List.mem_cons, List.not_mem_nil, or_false, forall_eq_or_imp, forall_eq, Operator.accepts, OpType.matches_,
    Version.matchesNotEqual, Version.matchesGreaterOrEqual, Version.matchesLessOrEqual, Except.ok.injEq, Bool.not_eq_true', Bool.eq_false_iff,
    ne_eq, veq_iff, vge_iff, vle_iff] at h
  exact h.1 (le_antisymm h.2.2 h.2.1)

/-- The set of an operator that starts begins at its version. -/
theorem Operator.Starts.item {o : Operator} (h : o.Starts) (hv : o.version.Valid) {lim : Nat} {x : VSet} (hx : o.toSet lim = .ok x) :
    ∃ i, x = .item i ∧ i.lo = cutAt o.version false := by
  obtain ⟨t, a⟩ := o
  have hv : a.Valid := hv
  have range : ∀ (n : Except PyErr Version), (do .ok (VSet.item (← Item.mkRange (some a) (some (← n)) true false))) = Except.ok x →
      ∃ i, x = .item i ∧ i.lo = cutAt a false := by
    rintro (e | b) hx
    · cases hx
    · simp only [bind, Except.bind, mkRange_window] at hx
      split at hx
      · cases hx
      · rename_i i hi
        split at hi
        · cases hi
        · cases hi; cases hx
          exact ⟨_, rfl, rfl⟩
  rcases h with h | ⟨h, hn⟩
  · simp only [List.mem_cons, List.not_mem_nil, or_false] at h
    rcases h with rfl | rfl | rfl | rfl | rfl | rfl
    · exact range _ hx
    · exact range _ hx
    · exact range _ hx
    · cases hx; exact ⟨_, rfl, rfl⟩
    · cases hx; exact ⟨_, rfl, rfl⟩
    · cases hx; exact ⟨_, rfl, rfl⟩
  · have wild : a.translateWildcardEqual = .ok x → ∃ i, x = .item i ∧ i.lo = cutAt a false := fun hx => by
      unfold Version.translateWildcardEqual at hx
      rcases hn' : a.nextWildcardBreaking with e | (_ | b)
      · rw [hn'] at hx; cases hx
      · exfalso
        obtain ⟨-, w2, w3, w4⟩ := wildcard_spec hv
        have hp : 0 < a.release.precision := (precision_pos_iff _).2 hv.release
        by_cases hs : a.isStable = true
        · obtain ⟨h1, h2⟩ := (stable_iff a).1 hs
          by_cases h3 : a.post = none
          · have h4 : a.release.precision ≠ 1 := fun h4 => hn ⟨h1, h3, h2, h4⟩
            obtain ⟨w, hw, -⟩ := w2 h1 h3 h2 (by omega)
            rw [hn'] at hw; cases hw
          · obtain ⟨w, hw, -⟩ := w3 h1 h3 h2
            rw [hn'] at hw; cases hw
        · obtain ⟨w, hw, -⟩ := w4 (by simpa using hs)
          rw [hn'] at hw; cases hw
      · rw [hn'] at hx
        exact range (.ok b) hx
    simp only [List.mem_cons, List.not_mem_nil, or_false] at h
    rcases h with rfl | rfl
    · exact wild hx
    · exact wild hx

theorem Operator.Ends.item {o : Operator} (h : o.Ends) {lim : Nat} {x : VSet} (hx : o.toSet lim = .ok x) : ∃ i, x = .item i ∧ i.lo = ⊥ := by
  obtain ⟨t, a⟩ := o
  simp only [Operator.Ends, List.mem_cons, List.not_mem_nil, or_false] at h
  rcases h with rfl | rfl <;>
  · cases hx; exact ⟨_, rfl, rfl⟩

/-- What an intersection of several sets covers. -/
theorem reduceAll_cov {lim : Nat} : ∀ {l : List Specifier} {acc x : VSet}, (∀ s ∈ l, s.Valid) → acc.Normal →
    Specifier.reduceAll lim acc l = .ok x →
    x.Normal ∧ (∀ s ∈ l, ∃ y, s.toSet lim = .ok y) ∧ ∀ c, x.Cov c ↔ acc.Cov c ∧ ∀ s ∈ l, ∀ y, s.toSet lim = .ok y → y.Cov c
  | [], acc, x, _, ha, h => by
    simp only [Specifier.reduceAll, Except.ok.injEq] at h
    subst h
    exact ⟨ha, by simp, by simp⟩
  | s :: l, acc, x, hl, ha, h => by
    rw [Specifier.reduceAll] at h
    rcases hs : s.toSet lim with e | y
    · rw [hs] at h; cases h
    · have hy := (Specifier.toSet_means (hl s (by simp)) lim y hs).1
      obtain ⟨z, hz, nz, cz⟩ := intersection_spec ha hy
      rw [hs] at h
      simp only [bind, Except.bind, hz lim] at h
      obtain ⟨h1, h2, h3⟩ := reduceAll_cov (fun t ht => hl t (by simp [ht])) nz h
      refine ⟨h1, fun t ht => ?_, fun c => ?_⟩
      · rcases List.mem_cons.1 ht with rfl | ht
        · exact ⟨y, hs⟩
        · exact h2 t ht
      · rw [h3, cz]
        simp only [List.mem_cons, forall_eq_or_imp, hs, Except.ok.injEq, forall_eq', and_assoc]

/-- C120. The set of such a list of requirements is empty iff none of the versions named in them satisfies all of them. -/
theorem C120_empty (l : List Operator) (hv : (Specifier.all (l.map .one)).Valid) (hl : ∀ o ∈ l, o.Starts ∨ o.Ends) (h1 : ∃ m ∈ l, m.Starts)
    (lim : Nat) (x : VSet) (h : (Specifier.all (l.map .one)).toSet lim = .ok x) :
    x = .empty ↔ ∀ m ∈ l, m.Starts → ∃ o ∈ l, o.accepts m.version = .ok false := by
  have hvs : ∀ s ∈ l.map Specifier.one, s.Valid := by cases hv with | all _ h => exact h
  have hvo : ∀ o ∈ l, o.version.Valid := fun o ho => by
    cases hvs (.one o) (List.mem_map.2 ⟨o, ho, rfl⟩) with | one h _ => exact h
  -- what the set covers
  have hcov : x.Normal ∧ (∀ o ∈ l, ∃ y, o.toSet lim = .ok y) ∧ ∀ c, x.Cov c ↔ ∀ o ∈ l, ∀ y, o.toSet lim = .ok y → y.Cov c := by
    cases l with
    | nil => simp at h1
    | cons a l =>
      rw [List.map_cons, Specifier.toSet] at h
      rcases ha : (Specifier.one a).toSet lim with e | y
      · rw [ha] at h; cases h
      · rw [ha] at h
        have ny := (Specifier.toSet_means (hvs _ (by simp)) lim y ha).1
        rw [Specifier.toSet] at ha
        obtain ⟨g1, g2, g3⟩ := reduceAll_cov (fun s hs => hvs s (by simp only [List.map_cons, List.mem_cons]; exact .inr hs)) ny h
        simp only [List.mem_map, forall_exists_index, and_imp, forall_apply_eq_imp_iff₂, Specifier.toSet] at g2 g3
        refine ⟨g1, fun o ho => ?_, fun c => ?_⟩
        · rcases List.mem_cons.1 ho with rfl | ho
          · exact ⟨y, ha⟩
          · exact g2 o ho
        · rw [g3]
          simp only [List.mem_cons, forall_eq_or_imp, ha, Except.ok.injEq, forall_eq']
  obtain ⟨nx, hsets, hc⟩ := hcov
  have hacc : ∀ o ∈ l, ∀ y, o.toSet lim = .ok y → ∀ v, ∃ b, o.accepts v = .ok b ∧ (b = true ↔ y.Cov (cut v)) := fun o ho y hy v => by
    obtain ⟨b, h1, h2⟩ := C15_translation_exact o (hvo o ho) y lim hy v
    exact ⟨b, h1, h2.trans (mem_iff_cov _ _)⟩
  have hempty : x = .empty ↔ ∀ c, ¬ x.Cov c := by
    have e := eq_iff_cov nx (b := .empty) trivial
    have e0 : ∀ c, (VSet.empty).Cov c ↔ False := fun c => by simp [VSet.Cov, VSet.extract]
    simp only [e0, iff_false] at e
    rw [← e]
    cases x <;> simp [VSet.eq]
  rw [hempty]
  constructor
  · intro hx m hm hs
    by_contra hcon
    refine hx (cut m.version) ((hc _).2 fun o ho y hy => ?_)
    obtain ⟨b, hb, hy'⟩ := hacc o ho y hy m.version
    refine hy'.1 ?_
    by_contra hf
    exact hcon ⟨o, ho, by rw [hb]; simpa using hf⟩
  · intro hx c hcc
    rw [hc] at hcc
    obtain ⟨m, hm, hs, hmax⟩ := exists_greatest_start l h1
    obtain ⟨o, ho, hf⟩ := hx m hm hs
    obtain ⟨ym, hym⟩ := hsets m hm
    obtain ⟨im, rfl, lm⟩ := hs.item (hvo m hm) hym
    have hmc : cutAt m.version false ≤ c := by
      have := hcc m hm _ hym
      simp only [VSet.Cov, VSet.extract, Cov, List.mem_singleton, exists_eq_left] at this
      rw [← lm]; exact this.1
    obtain ⟨y, hy⟩ := hsets o ho
    obtain ⟨b, hb, hy'⟩ := hacc o ho y hy m.version
    rw [hb] at hf
    cases hf
    refine absurd (hy'.2 ?_) (by simp)
    have hyc := hcc o ho y hy
    rcases hl o ho with hso | he
    · obtain ⟨i, rfl, li⟩ := hso.item (hvo o ho) hy
      simp only [VSet.Cov, VSet.extract, Cov, List.mem_singleton, exists_eq_left] at hyc ⊢
      refine ⟨?_, lt_of_le_of_lt hmc hyc.2⟩
      rw [li]
      exact (cutAt_le _ _ _ _).2 (by
        rcases lt_or_eq_of_le (hmax o ho hso) with h | h
        · exact .inl h
        · exact .inr ⟨h, by simp⟩)
    · obtain ⟨i, rfl, li⟩ := he.item hy
      simp only [VSet.Cov, VSet.extract, Cov, List.mem_singleton, exists_eq_left] at hyc ⊢
      exact ⟨by rw [li]; exact bot_le, lt_of_le_of_lt hmc hyc.2⟩

/-- The set of `^1.2, ~1.3, >= 1.4` is empty. -/
example : (Specifier.all ([⟨.caret, exVersion [1, 2]⟩, ⟨.tilde, exVersion [1, 3]⟩, ⟨.greaterOrEqual, exVersion [1, 4]⟩].map .one)).toSet 5 = .ok .empty ∧
    ∀ m ∈ ([⟨.caret, exVersion [1, 2]⟩, ⟨.tilde, exVersion [1, 3]⟩, ⟨.greaterOrEqual, exVersion [1, 4]⟩] : List Operator),
      ∃ o ∈ ([⟨.caret, exVersion [1, 2]⟩, ⟨.tilde, exVersion [1, 3]⟩, ⟨.greaterOrEqual, exVersion [1, 4]⟩] : List Operator), o.accepts m.version = .ok false := by
  decide +kernel

/-- C120, violation. With `>` or `!=` it is not enough to try the versions that are named: some version satisfies `> a` and
`< b`, and `>= a` and `!= a`, but neither a nor b does. -/
theorem C120_violation : ∃ a b w : Version, a.Sane ∧ b.Sane ∧
    ((Operator.mk .greater a).accepts w = .ok true ∧ (Operator.mk .less b).accepts w = .ok true) ∧
    ((Operator.mk .greaterOrEqual a).accepts w = .ok true ∧ (Operator.mk .notEqual a).accepts w = .ok true) ∧
    (Operator.mk .greater a).accepts a = .ok false ∧ (Operator.mk .less b).accepts b = .ok false ∧ (Operator.mk .notEqual a).accepts a = .ok false := by
  have hv : ∀ p, p ≠ [] → (exVersion p).Valid := fun p hp => exValid _ hp _ _ _ (by simp) (by simp) (by simp)
  exact ⟨exVersion [1], exVersion [2], exVersion [1, 5], ⟨hv _ (by simp), by decide⟩, ⟨hv _ (by simp), by decide⟩, by decide +kernel⟩

end Verif
