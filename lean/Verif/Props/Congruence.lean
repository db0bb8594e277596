import Verif.Props.Caches
import Verif.Props.Pep440Clauses
/-!
# What equal versions have in common (C95)
-/

namespace Verif
open scoped Verif

/-- What an operator of type `t` looks at besides the version up to `==`: the number of parts given for `~=` and for the
wildcard operators on stable versions, whether there are two parts for `~` on stable versions, and for `^` on stable versions
that start with two zeros, whether there are one, two or more parts. -/
def OpType.SameReading (t : OpType) (a b : Version) : Prop :=
  match t with
  | .tildeEqual => a.release.precision = b.release.precision
  | .tilde => a.isStable = true → min 2 a.release.precision = min 2 b.release.precision
  | .caret => a.isStable = true → a.release.part 0 = 0 → a.release.part 1 = 0 →
      min 3 a.release.precision = min 3 b.release.precision
  | .wildcardDoubleEqual | .wildcardEqual | .wildcardNotEqual => a.isStable = true → a.release.precision = b.release.precision
  | _ => True

/-- The common content of versions that compare equal. -/
structure SameContent (a b : Version) : Prop where
  key : a.key = b.key
  epoch : a.epoch = b.epoch
  part : ∀ i, a.release.part i = b.release.part i
  pre : a.pre = b.pre
  post : a.post = b.post
  dev : a.dev = b.dev
  local_ : a.local_ = b.local_

theorem SameContent.of_eq {a b : Version} (ha : a.Valid) (hb : b.Valid) (h : a ==ₚ b) : SameContent a b := by
  obtain ⟨h1, h2, h3, h4, h5, h6⟩ := (C02_eq_iff a b ha hb).1 h
  exact ⟨(veq_iff _ _).1 h, epoch_ext h1, h2, h3, h4, h5, h6⟩

theorem SameContent.symm {a b : Version} (h : SameContent a b) : SameContent b a :=
  ⟨h.key.symm, h.epoch.symm, fun i => (h.part i).symm, h.pre.symm, h.post.symm, h.dev.symm, h.local_.symm⟩

theorem SameContent.stable {a b : Version} (h : SameContent a b) : a.isStable = b.isStable := by
  rw [Bool.eq_iff_iff, stable_iff, stable_iff, h.pre, h.dev]

theorem SameContent.samePart {a b : Version} (h : SameContent a b) : b.release.part = a.release.part :=
  funext fun i => (h.part i).symm

theorem part_past {r : Release} {k : Nat} (hk : r.precision ≤ k) : r.part k = 0 := by
  simp only [Release.precision] at hk
  simp [Release.part, Nat.not_lt.2 hk]

theorem final_key_eq {a b w x : Version} (h : SameContent a b) (hw : w.IsFinal) (hx : x.IsFinal) (vw : w.Valid) (vx : x.Valid)
    (he : w.epoch = a.epoch) (he' : x.epoch = b.epoch) (hp : ∀ j, w.release.part j = x.release.part j) : w.key = x.key := by
  obtain ⟨p1, p2, p3, p4⟩ := hw
  obtain ⟨q1, q2, q3, q4⟩ := hx
  rw [← veq_iff]
  refine (C02_eq_iff w x vw vx).2 ⟨by rw [he, he', h.epoch], hp, by rw [p1, q1], by rw [p2, q2], by rw [p3, q3], by rw [p4, q4]⟩

theorem Bumped.key_eq {a b w x : Version} {i : Nat} (h : SameContent a b) (hw : Bumped i a w) (hx : Bumped i b x) :
    w.key = x.key := by
  refine final_key_eq h hw.final hx.final hw.valid hx.valid hw.numbers.1 hx.numbers.1 fun j => ?_
  rw [hw.numbers.2, hx.numbers.2]
  simp only [h.part]

theorem Dropped.key_eq {a b w x : Version} (h : SameContent a b) (hw : Dropped a w) (hx : Dropped b x) : w.key = x.key := by
  refine final_key_eq h hw.final hx.final hw.valid hx.valid hw.epoch hx.epoch fun j => ?_
  rw [hw.release, hx.release, h.part]

/-- Bumping further to the right gives a smaller version. -/
theorem Bumped.key_lt {a b w x : Version} {i j : Nat} (h : SameContent a b) (hb : b.release.NonNeg) (hij : i < j)
    (hw : Bumped i a w) (hx : Bumped j b x) : x.key < w.key := by
  rw [key_lt_iff]
  refine .inr ⟨by rw [hw.numbers.1, hx.numbers.1, h.epoch], .inl ?_⟩
  refine compareParts_lt_of_below _ _ hx.valid.release hw.valid.release (hx.nonNeg hb) ⟨i, fun k hk => ?_, ?_⟩
  · rw [hw.numbers.2, hx.numbers.2, if_pos (by omega), if_pos hk, h.part]
  · rw [hw.numbers.2, hx.numbers.2, if_pos hij, if_neg (by omega), if_pos rfl, h.part]
    omega

/-- Two upper ends of windows from equal versions: equal, or bumped at different places. -/
def SameEnd (p : Prop) (a b w x : Version) : Prop :=
  (p ∧ w.key = x.key) ∨ (¬ p ∧ ∃ i j, i ≠ j ∧ Bumped i a w ∧ Bumped j b x)

theorem tildeEqual_ends {a b : Version} (ha : a.Valid) (hb : b.Valid) (h : SameContent a b)
    (pa : 2 ≤ a.release.precision) (pb : 2 ≤ b.release.precision) :
    ∃ w x, a.nextTildeEqualBreaking = .ok w ∧ b.nextTildeEqualBreaking = .ok x ∧
      SameEnd (OpType.tildeEqual.SameReading a b) a b w x := by
  obtain ⟨w, w1, w2⟩ := (tildeEqual_spec ha).2 pa
  obtain ⟨x, x1, x2⟩ := (tildeEqual_spec hb).2 pb
  refine ⟨w, x, w1, x1, ?_⟩
  by_cases hp : a.release.precision = b.release.precision
  · rw [← hp] at x2
    exact .inl ⟨hp, w2.key_eq h x2⟩
  · exact .inr ⟨hp, _, _, by omega, w2, x2⟩

theorem tilde_ends {a b : Version} (ha : a.Valid) (hb : b.Valid) (h : SameContent a b) :
    ∃ w x, a.nextTildeBreaking = .ok w ∧ b.nextTildeBreaking = .ok x ∧ SameEnd (OpType.tilde.SameReading a b) a b w x := by
  have pa : 0 < a.release.precision := (precision_pos_iff _).2 ha.release
  have pb : 0 < b.release.precision := (precision_pos_iff _).2 hb.release
  obtain ⟨w, w1, w2, w3⟩ := tilde_spec ha
  obtain ⟨x, x1, x2, x3⟩ := tilde_spec hb
  refine ⟨w, x, w1, x1, ?_⟩
  rw [← h.stable] at x2 x3
  unfold SameEnd OpType.SameReading
  cases hs : a.isStable with
  | false => exact .inl ⟨by simp, (w3 hs).key_eq h (x3 hs)⟩
  | true =>
    have w2 := w2 hs
    have x2 := x2 hs
    by_cases hp : min 2 a.release.precision = min 2 b.release.precision
    · refine .inl ⟨fun _ => hp, ?_⟩
      have : (if 2 ≤ a.release.precision then 1 else 0) = (if 2 ≤ b.release.precision then 1 else 0) := by
        split <;> split <;> omega
      rw [← this] at x2
      exact w2.key_eq h x2
    · exact .inr ⟨fun hc => hp (hc rfl), _, _, by split <;> split <;> omega, w2, x2⟩

theorem caretIndex_same {a b : Version} (h : SameContent a b) {i : Nat} (hi : CaretIndex a.release i)
    (hr : a.release.part 0 = 0 → a.release.part 1 = 0 → min 3 a.release.precision = min 3 b.release.precision) :
    CaretIndex b.release i := by
  obtain ⟨h1, h2, h3⟩ := hi
  refine ⟨h1, fun j hj => by rw [← h.part, h2 j hj], ?_⟩
  rw [← h.part]
  rcases h3 with h3 | h3
  · exact .inl h3
  by_cases z0 : a.release.part 0 = 0
  · by_cases z1 : a.release.part 1 = 0
    · exact .inr (by rw [h3, hr z0 z1])
    · obtain rfl | rfl | rfl : i = 0 ∨ i = 1 ∨ i = 2 := by omega
      · exact absurd (part_past (by omega)) z1
      · exact .inl z1
      · exact absurd (h2 1 (by omega)) z1
  · obtain rfl : i = 0 := by
      by_contra hc
      exact z0 (h2 0 (by omega))
    exact .inl z0

theorem caretIndex_differ {a b : Version} (h : SameContent a b) {i j : Nat} (hi : CaretIndex a.release i)
    (hj : CaretIndex b.release j) (z0 : a.release.part 0 = 0) (z1 : a.release.part 1 = 0)
    (hr : min 3 a.release.precision ≠ min 3 b.release.precision) : i ≠ j := by
  rintro rfl
  obtain ⟨h1, h2, h3⟩ := hi
  obtain ⟨-, -, g3⟩ := hj
  rw [← h.part] at g3
  by_cases hz : a.release.part i = 0
  · have h3 := h3.resolve_left (fun hc => hc hz)
    have g3 := g3.resolve_left (fun hc => hc hz)
    omega
  · obtain rfl | rfl | rfl : i = 0 ∨ i = 1 ∨ i = 2 := by omega
    · exact hz z0
    · exact hz z1
    · have pa : ¬ a.release.precision ≤ 2 := fun hc => hz (part_past hc)
      have pb : ¬ b.release.precision ≤ 2 := fun hc => hz (by rw [h.part]; exact part_past hc)
      omega

theorem caret_ends {a b : Version} (ha : a.Valid) (hb : b.Valid) (h : SameContent a b) :
    ∃ w x, a.nextCaretBreaking = .ok w ∧ b.nextCaretBreaking = .ok x ∧ SameEnd (OpType.caret.SameReading a b) a b w x := by
  obtain ⟨w, w1, w2, w3, w4⟩ := caret_spec ha
  obtain ⟨x, x1, x2, x3, x4⟩ := caret_spec hb
  refine ⟨w, x, w1, x1, ?_⟩
  rw [← h.stable] at x2 x3 x4
  rw [← h.part] at x3 x4
  unfold SameEnd OpType.SameReading
  cases hs : a.isStable with
  | false =>
    refine .inl ⟨by simp, ?_⟩
    by_cases hz : a.release.part 0 = 0
    · exact (w4 hs hz).key_eq h (x4 hs hz)
    · exact (w3 hs hz).key_eq h (x3 hs hz)
  | true =>
    obtain ⟨i, hi, w2⟩ := w2 hs
    obtain ⟨j, hj, x2⟩ := x2 hs
    by_cases hr : a.release.part 0 = 0 → a.release.part 1 = 0 → min 3 a.release.precision = min 3 b.release.precision
    · obtain rfl := caretIndex_unique (caretIndex_same h hi hr) hj
      exact .inl ⟨fun _ => hr, w2.key_eq h x2⟩
    · refine .inr ⟨fun hc => hr (hc rfl), i, j, ?_, w2, x2⟩
      simp only [Classical.not_imp] at hr
      exact caretIndex_differ h hi hj hr.1 hr.2.1 hr.2.2

/-- The upper ends of the wildcard operators on equal versions: both missing, both there and as above, or just one there
and then the numbers of parts differ. -/
theorem wildcard_ends {a b : Version} (ha : a.Valid) (hb : b.Valid) (h : SameContent a b) :
    (a.nextWildcardBreaking = .ok none ∧ b.nextWildcardBreaking = .ok none ∧ OpType.wildcardEqual.SameReading a b) ∨
    (∃ w x, a.nextWildcardBreaking = .ok (some w) ∧ b.nextWildcardBreaking = .ok (some x) ∧
      SameEnd (OpType.wildcardEqual.SameReading a b) a b w x) ∨
    (¬ OpType.wildcardEqual.SameReading a b ∧ ∃ i x, a.nextWildcardBreaking = .ok none ∧
      b.nextWildcardBreaking = .ok (some x) ∧ Bumped i b x) ∨
    (¬ OpType.wildcardEqual.SameReading a b ∧ ∃ i w, a.nextWildcardBreaking = .ok (some w) ∧
      b.nextWildcardBreaking = .ok none ∧ Bumped i a w) := by
  have pa : 0 < a.release.precision := (precision_pos_iff _).2 ha.release
  have pb : 0 < b.release.precision := (precision_pos_iff _).2 hb.release
  obtain ⟨a1, a2, a3, a4⟩ := wildcard_spec ha
  obtain ⟨b1, b2, b3, b4⟩ := wildcard_spec hb
  rw [← h.pre, ← h.post, ← h.dev] at b1 b2 b3
  rw [← h.stable] at b4
  unfold SameEnd OpType.SameReading
  cases hs : a.isStable with
  | false =>
    obtain ⟨w, w1, w2⟩ := a4 hs
    obtain ⟨x, x1, x2⟩ := b4 hs
    exact .inr (.inl ⟨w, x, w1, x1, .inl ⟨by simp, w2.key_eq h x2⟩⟩)
  | true =>
    obtain ⟨hp, hd⟩ := (stable_iff a).1 hs
    simp only [forall_const]
    by_cases hq : a.post = none
    · by_cases na : a.release.precision = 1
      · by_cases nb : b.release.precision = 1
        · exact .inl ⟨a1 hp hq hd na, b1 hp hq hd nb, na.trans nb.symm⟩
        · obtain ⟨x, x1, x2⟩ := b2 hp hq hd (by omega)
          exact .inr (.inr (.inl ⟨by omega, _, x, a1 hp hq hd na, x1, x2⟩))
      · obtain ⟨w, w1, w2⟩ := a2 hp hq hd (by omega)
        by_cases nb : b.release.precision = 1
        · exact .inr (.inr (.inr ⟨by omega, _, w, w1, b1 hp hq hd nb, w2⟩))
        · obtain ⟨x, x1, x2⟩ := b2 hp hq hd (by omega)
          refine .inr (.inl ⟨w, x, w1, x1, ?_⟩)
          by_cases he : a.release.precision = b.release.precision
          · rw [← he] at x2
            exact .inl ⟨he, w2.key_eq h x2⟩
          · exact .inr ⟨he, _, _, by omega, w2, x2⟩
    · obtain ⟨w, w1, w2⟩ := a3 hp hq hd
      obtain ⟨x, x1, x2⟩ := b3 hp hq hd
      refine .inr (.inl ⟨w, x, w1, x1, ?_⟩)
      by_cases he : a.release.precision = b.release.precision
      · rw [← he] at x2
        exact .inl ⟨he, w2.key_eq h x2⟩
      · exact .inr ⟨he, _, _, by omega, w2, x2⟩

/-! ### windows -/

theorem window_test_same {a b w x : Version} (h : a.key = b.key) (hw : w.key = x.key) (v : Version) :
    (PyCmp.le a v && PyCmp.lt v w) = (PyCmp.le b v && PyCmp.lt v x) := by
  rw [Bool.eq_iff_iff, Bool.and_eq_true, Bool.and_eq_true, vle_iff, vle_iff, vlt_iff, vlt_iff, h, hw]

theorem window_test_differ {a b w x : Version} {i j : Nat} (ha : a.Sane) (hb : b.Sane) (h : SameContent a b) (hij : i ≠ j)
    (hw : Bumped i a w) (hx : Bumped j b x) :
    ∃ v : Version, v.Sane ∧ (PyCmp.le a v && PyCmp.lt v w) ≠ (PyCmp.le b v && PyCmp.lt v x) := by
  rcases Nat.lt_or_gt_of_ne hij with hij | hij
  · have hlt := hw.key_lt h hb.nonNeg hij hx
    have hbx := hx.lt hb.valid hb.nonNeg
    refine ⟨x, ⟨hx.valid, hx.nonNeg hb.nonNeg⟩, ?_⟩
    have e1 : (PyCmp.le a x && PyCmp.lt x w) = true := by
      rw [Bool.and_eq_true, vle_iff, vlt_iff, h.key]; exact ⟨hbx.le, hlt⟩
    have e2 : ¬ (PyCmp.le b x && PyCmp.lt x x) = true := by
      rw [Bool.and_eq_true, vlt_iff]; exact fun hc => lt_irrefl _ hc.2
    rw [e1]; exact fun hc => e2 hc.symm
  · have hlt := hx.key_lt h.symm ha.nonNeg hij hw
    have haw := hw.lt ha.valid ha.nonNeg
    refine ⟨w, ⟨hw.valid, hw.nonNeg ha.nonNeg⟩, ?_⟩
    have e1 : (PyCmp.le b w && PyCmp.lt w x) = true := by
      rw [Bool.and_eq_true, vle_iff, vlt_iff, ← h.key]; exact ⟨haw.le, hlt⟩
    have e2 : ¬ (PyCmp.le a w && PyCmp.lt w w) = true := by
      rw [Bool.and_eq_true, vlt_iff]; exact fun hc => lt_irrefl _ hc.2
    rw [e1]; exact e2

theorem chained_differ {na nb : Version → Except PyErr Version} {a b w x : Version} {p : Prop} (ha : a.Sane) (hb : b.Sane)
    (h : SameContent a b) (hw : na a = .ok w) (hx : nb b = .ok x) (he : SameEnd p a b w x) :
    (p → ∀ v, Version.chained na v a = Version.chained nb v b) ∧
    (¬ p → ∃ v : Version, v.Sane ∧ Version.chained na v a ≠ Version.chained nb v b) := by
  simp only [chained_ok hw, chained_ok hx, ne_eq, Except.ok.injEq]
  rcases he with ⟨hp, hk⟩ | ⟨hp, i, j, hij, w2, x2⟩
  · exact ⟨fun _ => window_test_same h.key hk, fun hc => absurd hp hc⟩
  · exact ⟨fun hc => absurd hc hp, fun _ => window_test_differ ha hb h hij w2 x2⟩

theorem wildcard_differ {a b : Version} (ha : a.Sane) (hb : b.Sane) (h : SameContent a b) :
    (OpType.wildcardEqual.SameReading a b → ∀ v : Version, v.matchesWildcardEqual a = v.matchesWildcardEqual b) ∧
    (¬ OpType.wildcardEqual.SameReading a b → ∃ v : Version, v.Sane ∧ ∃ r s, v.matchesWildcardEqual a = .ok r ∧
      v.matchesWildcardEqual b = .ok s ∧ r ≠ s) := by
  have hstar : ∀ {c v : Version}, c.nextWildcardBreaking = .ok none → v.matchesWildcardEqual c = .ok true := by
    intro c v hc; simp [Version.matchesWildcardEqual, hc, bind, Except.bind]
  have hout : ∀ {c x : Version}, (PyCmp.le c x && PyCmp.lt x x) = false := by
    intro c x
    rw [← Bool.not_eq_true, Bool.and_eq_true, vlt_iff]
    exact fun hc => lt_irrefl _ hc.2
  rcases wildcard_ends ha.valid hb.valid h with ⟨h1, h2, h3⟩ | ⟨w, x, h1, h2, h3⟩ | ⟨h3, i, x, h1, h2, h4⟩ | ⟨h3, i, w, h1, h2, h4⟩
  · exact ⟨fun _ v => by rw [hstar h1, hstar h2], fun hc => absurd h3 hc⟩
  · simp only [wildcardEqual_ok h1, wildcardEqual_ok h2, Except.ok.injEq]
    rcases h3 with ⟨hp, hk⟩ | ⟨hp, i, j, hij, w2, x2⟩
    · exact ⟨fun _ => window_test_same h.key hk, fun hc => absurd hp hc⟩
    · refine ⟨fun hc => absurd hc hp, fun _ => ?_⟩
      obtain ⟨v, v1, v2⟩ := window_test_differ ha hb h hij w2 x2
      exact ⟨v, v1, _, _, rfl, rfl, v2⟩
  · refine ⟨fun hc => absurd hc h3, fun _ => ⟨x, ⟨h4.valid, h4.nonNeg hb.nonNeg⟩, _, _, hstar h1, wildcardEqual_ok h2 x, ?_⟩⟩
    rw [hout]; simp
  · refine ⟨fun hc => absurd hc h3, fun _ => ⟨w, ⟨h4.valid, h4.nonNeg ha.nonNeg⟩, _, _, wildcardEqual_ok h1 w, hstar h2, ?_⟩⟩
    rw [hout]; simp

/-- C95. Operators of the same type on versions that are `==` accept the same versions if the number of parts matters the
same way, and only then. -/
theorem C95_operators (t : OpType) (a b : Version) (ha : a.Sane) (hb : b.Sane) (h : a ==ₚ b)
    (hp : t = .tildeEqual → 2 ≤ a.release.precision ∧ 2 ≤ b.release.precision) :
    (t.SameReading a b → ∀ v, (⟨t, a⟩ : Operator).accepts v = (⟨t, b⟩ : Operator).accepts v) ∧
    (¬ t.SameReading a b → ∃ v : Version, v.Sane ∧ (⟨t, a⟩ : Operator).accepts v ≠ (⟨t, b⟩ : Operator).accepts v) := by
  have hc := SameContent.of_eq ha.valid hb.valid h
  have hk := hc.key
  obtain ⟨wild1, wild2⟩ := wildcard_differ ha hb hc
  cases t with
  | tildeEqual =>
    obtain ⟨w, x, w1, x1, he⟩ := tildeEqual_ends ha.valid hb.valid hc (hp rfl).1 (hp rfl).2
    exact chained_differ ha hb hc w1 x1 he
  | tilde =>
    obtain ⟨w, x, w1, x1, he⟩ := tilde_ends ha.valid hb.valid hc
    exact chained_differ ha hb hc w1 x1 he
  | caret =>
    obtain ⟨w, x, w1, x1, he⟩ := caret_ends ha.valid hb.valid hc
    exact chained_differ ha hb hc w1 x1 he
  | wildcardDoubleEqual =>
    refine ⟨wild1, fun hr => ?_⟩
    obtain ⟨v, v1, r, s, v2, v3, v4⟩ := wild2 hr
    exact ⟨v, v1, fun he => v4 (Except.ok.inj ((v2.symm.trans he).trans v3))⟩
  | wildcardEqual =>
    refine ⟨wild1, fun hr => ?_⟩
    obtain ⟨v, v1, r, s, v2, v3, v4⟩ := wild2 hr
    exact ⟨v, v1, fun he => v4 (Except.ok.inj ((v2.symm.trans he).trans v3))⟩
  | wildcardNotEqual =>
    refine ⟨fun hr v => ?_, fun hr => ?_⟩
    · show Version.matchesWildcardNotEqual v a = Version.matchesWildcardNotEqual v b
      simp only [Version.matchesWildcardNotEqual, wild1 hr v]
    · obtain ⟨v, v1, r, s, v2, v3, v4⟩ := wild2 hr
      refine ⟨v, v1, fun he => v4 ?_⟩
      replace he : Version.matchesWildcardNotEqual v a = Version.matchesWildcardNotEqual v b := he
      simp only [Version.matchesWildcardNotEqual, v2, v3, bind, Except.bind, Except.ok.injEq] at he
      simpa using he
  | _ =>
    refine ⟨fun _ v => ?_, fun hr => absurd trivial hr⟩
    have e1 : PyCmp.eq v a = PyCmp.eq v b := by rw [Bool.eq_iff_iff, veq_iff, veq_iff, hk]
    have e2 : PyCmp.lt v a = PyCmp.lt v b := by rw [Bool.eq_iff_iff, vlt_iff, vlt_iff, hk]
    have e3 : PyCmp.le v a = PyCmp.le v b := by rw [Bool.eq_iff_iff, vle_iff, vle_iff, hk]
    have e4 : PyCmp.gt v a = PyCmp.gt v b := by rw [Bool.eq_iff_iff, vgt_iff, vgt_iff, hk]
    have e5 : PyCmp.ge v a = PyCmp.ge v b := by rw [Bool.eq_iff_iff, vge_iff, vge_iff, hk]
    simp only [Operator.accepts, OpType.matches_, Version.matchesEqual, Version.matchesNotEqual, Version.matchesLess,
      Version.matchesLessOrEqual, Version.matchesGreater, Version.matchesGreaterOrEqual, e1, e2, e3, e4, e5]

/-- `^0` and `^0.0` differ, `^1` and `^1.0` do not. -/
example : ¬ OpType.caret.SameReading (exVersion [0]) (exVersion [0, 0]) ∧
    (∃ v : Version, v.Sane ∧
      (⟨.caret, exVersion [0]⟩ : Operator).accepts v ≠ (⟨.caret, exVersion [0, 0]⟩ : Operator).accepts v) ∧
    ∀ v, (⟨.caret, exVersion [1]⟩ : Operator).accepts v = (⟨.caret, exVersion [1, 0]⟩ : Operator).accepts v := by
  have h : ¬ OpType.caret.SameReading (exVersion [0]) (exVersion [0, 0]) := by unfold OpType.SameReading; decide
  refine ⟨h, (C95_operators .caret _ _ ⟨by decide +kernel, by decide +kernel⟩ ⟨by decide +kernel, by decide +kernel⟩
    (by decide +kernel) (by simp)).2 h, (C95_operators .caret _ _ ⟨by decide +kernel, by decide +kernel⟩
    ⟨by decide +kernel, by decide +kernel⟩ (by decide +kernel) (by simp)).1 ?_⟩
  unfold OpType.SameReading; decide

/-! ### sets and the cache -/

theorem window_same {a b w x : Version} (h : a.key = b.key) (hw : w.key = x.key) (hlt : a.key < w.key) :
    SameSet (.ok (window a w)) (.ok (window b x)) :=
  item_same (window_normal hlt) (window_normal (by rw [← h, ← hw]; exact hlt)) ((cutAt_eq _ _ _ _).2 ⟨h, rfl⟩)
    ((cutAt_eq _ _ _ _).2 ⟨hw, rfl⟩)

theorem range_same {na nb : Version → Except PyErr Version} {a b w x : Version} (hw : na a = .ok w) (hx : nb b = .ok x)
    (h : a.key = b.key) (hk : w.key = x.key) (hne : a.key ≠ w.key) :
    SameSet (do .ok (.item (← Item.mkRange (some a) (some (← na a)) true false)) : Except PyErr VSet)
      (do .ok (.item (← Item.mkRange (some b) (some (← nb b)) true false)) : Except PyErr VSet) := by
  rw [range_translate hw, range_translate hx, ← h, ← hk]
  split
  · rfl
  · rename_i hc
    exact window_same h hk (lt_of_le_of_ne (not_lt.1 hc) hne)

theorem wildcard_same {a b : Version} (ha : a.Valid) (hb : b.Valid) (h : SameContent a b)
    (hr : OpType.wildcardEqual.SameReading a b) : SameSet a.translateWildcardEqual b.translateWildcardEqual ∧
      ∀ lim, SameSet (a.translateWildcardNotEqual lim) (b.translateWildcardNotEqual lim) := by
  rcases wildcard_ends ha hb h with ⟨h1, h2, -⟩ | ⟨w, x, h1, h2, h3⟩ | ⟨h3, -⟩ | ⟨h3, -⟩
  · simp only [Version.translateWildcardNotEqual, wildcard_translate_star h1, wildcard_translate_star h2, not_universal, bind,
      Except.bind]
    exact ⟨⟨universal_normal, universal_normal, fun _ => Iff.rfl⟩, fun lim => ⟨trivial, trivial, fun _ => Iff.rfl⟩⟩
  · have hk : w.key = x.key := by
      rcases h3 with h3 | h3
      · exact h3.2
      · exact absurd hr h3.1
    have hne : a.key ≠ w.key := by
      rcases wildcard_upper ha with hu | ⟨w', hu, hw⟩
      · rw [h1] at hu; cases hu
      · rw [h1] at hu; cases hu; exact hw.ne ha
    simp only [Version.translateWildcardNotEqual]
    rw [wildcard_translate h1, wildcard_translate h2, ← h.key, ← hk]
    by_cases hlt : w.key < a.key
    · simp only [if_pos hlt, bind, Except.bind]
      exact ⟨rfl, fun _ => rfl⟩
    · have hlt' : a.key < w.key := lt_of_le_of_ne (not_lt.1 hlt) hne
      have hs := window_same h.key hk hlt'
      obtain ⟨l, l1, l2, l3⟩ := complement_window hlt'
      obtain ⟨m, m1, m2, m3⟩ := complement_window (v := b) (w := x) (by rw [← h.key, ← hk]; exact hlt')
      simp only [if_neg hlt, bind, Except.bind, l1, m1]
      exact ⟨hs, fun _ => ⟨l2, m2, fun c => by rw [l3, m3, hs.2.2 c]⟩⟩
  · exact absurd hr h3
  · exact absurd hr h3

/-- Operators that are equal and of which the same parts matter stand for the same set. -/
theorem reading_same {o p : Operator} (ho : o.version.Valid) (hp : p.version.Valid)
    (so : o.type = .tildeEqual → 2 ≤ o.version.release.precision) (tp : p.type = .tildeEqual → 2 ≤ p.version.release.precision)
    (he : o.eq p = true) (hr : o.type.SameReading o.version p.version) (lim : Nat) : SameSet (o.toSet lim) (p.toSet lim) := by
  by_cases hs : o.type.Simple
  · exact simple_same he hs lim
  obtain ⟨t, a⟩ := o
  obtain ⟨u, b⟩ := p
  simp only at ho hp so tp hr hs
  simp only [Operator.eq, Bool.and_eq_true, Specifier.opType_eq_iff] at he
  have h := SameContent.of_eq ho hp he.2
  have he := he.1
  have hw := wildcard_same ho hp h
  have key : ∀ {q : Prop} {w x : Version}, q → SameEnd q a b w x → w.key = x.key := fun hq hk => by
    rcases hk with hk | hk
    · exact hk.2
    · exact absurd hq hk.1
  cases t <;> simp only [OpType.Simple, reduceCtorEq, or_false, false_or, not_true_eq_false] at hs <;> cases u <;>
    simp only [reduceCtorEq] at he
  case tildeEqual.tildeEqual =>
    obtain ⟨w, x, w1, x1, hk⟩ := tildeEqual_ends ho hp h (so rfl) (tp rfl)
    obtain ⟨w', w2, w3⟩ := (tildeEqual_spec ho).2 (so rfl)
    obtain rfl := Except.ok.inj (w1.symm.trans w2)
    exact range_same w1 x1 h.key (key hr hk) (w3.ne ho)
  case caret.caret =>
    obtain ⟨w, x, w1, x1, hk⟩ := caret_ends ho hp h
    obtain ⟨w', w2, w3, w4, w5⟩ := caret_spec ho
    obtain rfl := Except.ok.inj (w1.symm.trans w2)
    refine range_same (na := Version.nextCaretBreaking) (nb := Version.nextCaretBreaking) w1 x1 h.key (key hr hk) ?_
    cases hst : a.isStable with
    | true => obtain ⟨i, -, hb⟩ := w3 hst; exact hb.ne ho
    | false =>
      by_cases h0 : a.release.part 0 = 0
      · exact (w5 hst h0).ne
      · exact (w4 hst h0).ne ho
  case tilde.tilde =>
    obtain ⟨w, x, w1, x1, hk⟩ := tilde_ends ho hp h
    obtain ⟨w', w2, w3, w4⟩ := tilde_spec ho
    obtain rfl := Except.ok.inj (w1.symm.trans w2)
    refine range_same (na := Version.nextTildeBreaking) (nb := Version.nextTildeBreaking) w1 x1 h.key (key hr hk) ?_
    cases hst : a.isStable with
    | true => exact (w3 hst).ne ho
    | false => exact (w4 hst).ne
  case wildcardNotEqual.wildcardNotEqual => exact (hw hr).2 lim
  all_goals exact (hw hr).1

/-- Operators a program uses, accepted by their constructors, such that of any two equal ones the same parts matter. -/
structure Alike (Q : Operator → Prop) : Prop where
  valid : ∀ o, Q o → o.Valid
  same : ∀ o p, Q o → Q p → o.eq p = true → o.type.SameReading o.version p.version

theorem Alike.coherent {Q : Operator → Prop} (h : Alike Q) (lim : Nat) : Specifier.Coherent lim Q :=
  ⟨fun o ho => ⟨(h.valid o ho).version, (h.valid o ho).tildeEqual⟩, fun o p ho hp he =>
    reading_same (h.valid o ho).version (h.valid p hp).version (h.valid o ho).tildeEqual (h.valid p hp).tildeEqual he
      (h.same o p ho hp he) lim⟩

/-- Where the readings differ, the operators translate, and the sets are not equal. -/
theorem reading_differ {t : OpType} {a b : Version} (ha : (⟨t, a⟩ : Operator).Valid) (hb : (⟨t, b⟩ : Operator).Valid)
    (h : a ==ₚ b) (hr : ¬ t.SameReading a b) :
    ∃ x y, (∀ lim, (⟨t, a⟩ : Operator).toSet lim = .ok x) ∧ (∀ lim, (⟨t, b⟩ : Operator).toSet lim = .ok y) ∧ x.eq y = false := by
  have hc : SameContent a b := SameContent.of_eq ha.version hb.version h
  obtain ⟨v, -, hv⟩ := (C95_operators t a b ⟨ha.version, ha.nonNeg⟩ ⟨hb.version, hb.nonNeg⟩ h
    (fun ht => ⟨ha.tildeEqual ht, hb.tildeEqual ht⟩)).2 hr
  have hst : t = .tildeEqual ∨ a.isStable = true := by
    cases hs : a.isStable
    · left
      unfold OpType.SameReading at hr
      cases t <;> simp_all
    · exact .inr rfl
  have hok : ∀ {c : Version}, c.isStable = a.isStable → (⟨t, c⟩ : Operator).Valid →
      ∃ s, (∀ lim, (⟨t, c⟩ : Operator).toSet lim = .ok s) ∧ s.Normal ∧
        ∀ v, (⟨t, c⟩ : Operator).accepts v = .ok (s.contains v) := by
    intro c hs hvc
    rcases op_view hvc.version hvc.tildeEqual with hx | ⟨hx, -⟩
    · exact hx
    · exfalso
      have hn : ¬ (⟨t, c⟩ : Operator).Broken := by
        rintro ⟨⟨-, -, hd⟩, hb⟩
        rcases hst with rfl | hst
        · simp at hb
        · exact hd ((stable_iff c).1 (hs.trans hst)).2
      obtain ⟨s, h1⟩ := (C16_failure _ hvc 0).1 hn
      have := (h1 0).symm.trans (hx 0)
      cases this
  obtain ⟨x, x1, x2, x3⟩ := hok rfl ha
  obtain ⟨y, y1, y2, y3⟩ := hok hc.stable.symm hb
  refine ⟨x, y, x1, y1, ?_⟩
  rw [← Bool.not_eq_true]
  intro he
  apply hv
  rw [x3, y3, C28_eq_same_versions x y x2 y2 he v]

/-- C95. The conversion of specifiers to sets does not depend on what was converted before if of any two equal operators in
use the same parts matter. -/
theorem C95_cache (H : Hasher) (lim : Nat) (Q : Operator → Prop) (hQ : Alike Q) (history : List Specifier)
    (hh : ∀ t ∈ history, t.Over Q) (s : Specifier) (hs : s.Over Q) :
    EqualResults (s.toSetCached H (lim + 2) (Specifier.toSetHistory H (lim + 2) history)).1 (s.toSet (lim + 2)) :=
  (Specifier.toSetCached_computes H (hQ.coherent _) hs _ (toSetHistory_ok H lim (hQ.coherent _) history hh)).1.equalResults

/-- `^1` and `^1.0` can be used together. -/
example (H : Hasher) : EqualResults ((Specifier.one ⟨.caret, exVersion [1, 0]⟩).toSetCached H 7 (Specifier.toSetHistory H 7
    [.one ⟨.caret, exVersion [1]⟩])).1 (.ok (.item (exRange (some [1, 0]) (some [2, 0])))) := by
  have h := C95_cache H 5 (fun o => o = ⟨.caret, exVersion [1]⟩ ∨ o = ⟨.caret, exVersion [1, 0]⟩)
    ⟨by rintro _ (rfl | rfl) <;> exact ⟨by decide +kernel, by decide +kernel, by simp⟩,
      by rintro _ _ (rfl | rfl) (rfl | rfl) _ <;> unfold OpType.SameReading <;> decide⟩
    [.one ⟨.caret, exVersion [1]⟩] (by simp only [List.mem_cons, List.not_mem_nil, or_false, forall_eq]; exact .one (.inl rfl))
    (.one ⟨.caret, exVersion [1, 0]⟩) (.one (.inr rfl))
  rwa [show (Specifier.one ⟨.caret, exVersion [1, 0]⟩).toSet 7 = .ok (.item (exRange (some [1, 0]) (some [2, 0]))) by decide +kernel] at h

/-- The second of two equal operators of the same type is converted to the set of the first. -/
theorem cached_second (H : Hasher) (lim : Nat) {t : OpType} {a b : Version} (h : a ==ₚ b) {x : VSet}
    (hx : (⟨t, a⟩ : Operator).toSet lim = .ok x) :
    ((Specifier.one ⟨t, b⟩).toSetCached H lim (Specifier.toSetHistory H lim [.one ⟨t, a⟩])).1 = .ok x := by
  have hc : Specifier.toSetHistory H lim [.one ⟨t, a⟩] = [(.one ⟨t, a⟩, x)] := by
    simp only [Specifier.toSetHistory, Cached.after, List.map_cons, List.map_nil, List.foldl_cons, List.foldl_nil,
      Specifier.toSetCached, Cached.wrap, List.find?_nil, Cached.pure, hx]
  have he : (Specifier.one ⟨t, a⟩).eq (.one ⟨t, b⟩) = true := by
    have ht : t.eq t = true := by cases t <;> rfl
    simp [Specifier.eq, Operator.eq, ht, h]
  have hh : H.specifier (.one ⟨t, a⟩) = H.specifier (.one ⟨t, b⟩) := rfl
  rw [hc, Specifier.toSetCached]
  unfold Cached.wrap
  rw [List.find?_cons_of_pos (by simp [he, hh])]

/-- C95. And only if: for operators accepted by the constructor and written with one of the two spellings `=` and `==` of
wildcard operators, conversions are independent of what was converted before exactly if of any two equal operators in use the
same parts matter. -/
theorem C95_cache_exact (H : Hasher) (lim : Nat) (Q : Operator → Prop) (hv : ∀ o, Q o → o.Valid)
    (hw : ∀ o p, Q o → Q p → ¬ (o.type = .wildcardEqual ∧ p.type = .wildcardDoubleEqual)) :
    (∀ history : List Specifier, (∀ t ∈ history, t.Over Q) → ∀ s : Specifier, s.Over Q →
      EqualResults (s.toSetCached H (lim + 2) (Specifier.toSetHistory H (lim + 2) history)).1 (s.toSet (lim + 2))) ↔
    ∀ o p, Q o → Q p → o.eq p = true → o.type.SameReading o.version p.version := by
  refine ⟨fun hall o p ho hp he => ?_, fun hs history hh s hso => C95_cache H lim Q ⟨hv, hs⟩ history hh s hso⟩
  by_contra hr
  have vo := hv o ho
  have vp := hv p hp
  obtain ⟨t, a⟩ := o
  obtain ⟨u, b⟩ := p
  simp only [Operator.eq, Bool.and_eq_true, Specifier.opType_eq_iff] at he
  simp only at hr
  have htu : t = u := by
    have h1 := hw _ _ ho hp
    have h2 := hw _ _ hp ho
    have he := he.1
    cases t <;> cases u <;> first
      | rfl
      | exact absurd trivial hr
      | exact absurd ⟨rfl, rfl⟩ h1
      | exact absurd ⟨rfl, rfl⟩ h2
      | (simp only [reduceCtorEq] at he)
  subst htu
  obtain ⟨x, y, x1, y1, hxy⟩ := reading_differ vo vp he.2 hr
  have := hall [.one ⟨t, a⟩] (by simp only [List.mem_cons, List.not_mem_nil, or_false, forall_eq]; exact .one ho) (.one ⟨t, b⟩) (.one hp)
  rw [cached_second H (lim + 2) he.2 (x1 _), Specifier.toSet, y1] at this
  rcases this with ⟨x', y', h1, h2, h3⟩ | ⟨e, h1, -⟩
  · cases h1; cases h2
    rw [hxy] at h3; cases h3
  · cases h1

/-- `~= 1.0` together with `~= 1.0.0`, or `^0` with `^0.0`, is too much. -/
example (H : Hasher) (lim : Nat) (o p : Operator)
    (h : (o = ⟨.tildeEqual, exVersion [1, 0]⟩ ∧ p = ⟨.tildeEqual, exVersion [1, 0, 0]⟩) ∨
      (o = ⟨.caret, exVersion [0]⟩ ∧ p = ⟨.caret, exVersion [0, 0]⟩)) :
    ¬ ∀ history : List Specifier, (∀ t ∈ history, t.Over (fun q => q = o ∨ q = p)) →
      ∀ s : Specifier, s.Over (fun q => q = o ∨ q = p) →
      EqualResults (s.toSetCached H (lim + 2) (Specifier.toSetHistory H (lim + 2) history)).1 (s.toSet (lim + 2)) := by
  rcases h with ⟨rfl, rfl⟩ | ⟨rfl, rfl⟩
  · rw [C95_cache_exact H lim _ (by rintro _ (rfl | rfl) <;> exact ⟨by decide +kernel, by decide +kernel, fun _ => by decide +kernel⟩)
      (by rintro _ _ (rfl | rfl) (rfl | rfl) <;> simp)]
    intro h
    exact absurd (h _ _ (.inl rfl) (.inr rfl) (by decide +kernel)) (by unfold OpType.SameReading; decide)
  · rw [C95_cache_exact H lim _ (by rintro _ (rfl | rfl) <;> exact ⟨by decide +kernel, by decide +kernel, by simp⟩)
      (by rintro _ _ (rfl | rfl) (rfl | rfl) <;> simp)]
    intro h
    exact absurd (h _ _ (.inl rfl) (.inr rfl) (by decide +kernel)) (by unfold OpType.SameReading; decide)

/-! ### the methods of versions -/

/-- The results of two calls: versions that are `==`, or the same exception. -/
def Agree (x y : Except PyErr Version) : Prop :=
  (∃ v w : Version, x = .ok v ∧ y = .ok w ∧ v ==ₚ w) ∨ ∃ e, x = .error e ∧ y = .error e

theorem rebuilt_eq {a b : Version} (ha : a.Valid) (hb : b.Valid) (h : SameContent a b) (p q d : Option Tag) (l : Option Local) :
    (⟨a.epoch, a.release, p, q, d, l⟩ : Version) ==ₚ ⟨b.epoch, b.release, p, q, d, l⟩ := by
  rw [veq_iff, key_eq_iff]
  refine ⟨by rw [h.epoch], (compareParts_eq_iff _ _ ha.release hb.release).2 h.part, ?_⟩
  simp

theorem weaken_eq {a b : Version} (ha : a.Valid) (hb : b.Valid) (h : SameContent a b) (c : Version) : c.weaken a ==ₚ c.weaken b := by
  have hre := rebuilt_eq ha hb h
  obtain ⟨ae, ar, ap, aq, ad, al⟩ := a
  obtain ⟨be, br, bp, bq, bd, bl⟩ := b
  obtain ⟨-, -, -, h1, h2, h3, h4⟩ := h
  simp only at h1 h2 h3 h4 hre
  subst h1 h2 h3 h4
  unfold Version.weaken
  cases hl : c.isLocal <;> cases hq : c.isPostRelease <;> cases al <;> cases aq <;>
    simp [Version.isLocal, Version.isPostRelease, Version.withoutLocal, Version.setLocal, Version.withoutPost, Version.setPost, hre]

theorem released_eq {a b w x : Version} (hw : w.release.parts ≠ []) (hx : x.release.parts ≠ [])
    (hp : ∀ i, w.release.part i = x.release.part i) (h : SameContent a b) (ew : w = { a with release := w.release })
    (ex : x = { b with release := x.release }) : w ==ₚ x := by
  rw [ew, ex, veq_iff, key_eq_iff]
  refine ⟨by rw [h.epoch], (compareParts_eq_iff _ _ hw hx).2 hp, ?_⟩
  simp [h.pre, h.post, h.dev, h.local_]

/-- C95. Equal versions have the same epoch, tags and local segment, the same parts at every index from 0 on, and the same
answers to `is_stable` and its like. -/
theorem C95_values (a b : Version) (ha : a.Valid) (hb : b.Valid) (h : a ==ₚ b) :
    (a.epoch = b.epoch ∧ a.pre = b.pre ∧ a.post = b.post ∧ a.dev = b.dev ∧ a.local_ = b.local_) ∧
    (∀ i : Nat, a.getAt i = b.getAt i) ∧ (a.major = b.major ∧ a.minor = b.minor ∧ a.micro = b.micro) ∧
    a.isStable = b.isStable ∧ a.isUnstable = b.isUnstable ∧ a.isPreRelease = b.isPreRelease ∧
    a.isPostRelease = b.isPostRelease ∧ a.isDevRelease = b.isDevRelease ∧ a.isLocal = b.isLocal := by
  have hc := SameContent.of_eq ha hb h
  have hg : ∀ i : Nat, a.getAt i = b.getAt i := fun i => by
    show a.release.getAt i = b.release.getAt i
    rw [getAt_part, getAt_part, hc.part]
  refine ⟨⟨hc.epoch, hc.pre, hc.post, hc.dev, hc.local_⟩, hg, ⟨hg 0, hg 1, hg 2⟩, hc.stable, ?_⟩
  simp only [Version.isUnstable, Version.isPreRelease, Version.isPostRelease, Version.isDevRelease, Version.isLocal, hc.pre, hc.post,
    hc.dev, hc.local_, and_self]

example : exVersion [1, 0] (some rcTag) ==ₚ exVersion [1] (some rcTag) ∧
    (exVersion [1, 0] (some rcTag)).getAt 1 = (exVersion [1] (some rcTag)).getAt 1 ∧
    (exVersion [1, 0] (some rcTag)).getAt 1 9 ≠ (exVersion [1] (some rcTag)).getAt 1 9 ∧
    (exVersion [1, 0] (some rcTag)).getAt (-1) ≠ (exVersion [1] (some rcTag)).getAt (-1) := by decide +kernel

/-- C95. Changing equal versions in the same way gives equal versions, or the same exception. -/
theorem C95_changes (a b : Version) (ha : a.Valid) (hb : b.Valid) (h : a ==ₚ b) :
    (∀ i : Nat, Agree (a.nextAt i) (b.nextAt i)) ∧
    (Agree a.nextMajor b.nextMajor ∧ Agree a.nextMinor b.nextMinor ∧ Agree a.nextMicro b.nextMicro ∧ Agree a.nextPatch b.nextPatch) ∧
    (∀ (i : Nat) (x : Int), Agree (a.setAt i x) (b.setAt i x)) ∧
    (∀ m n : Int, Agree (a.padTo m) (b.padTo n) ∧ Agree (a.padToIndex m) (b.padToIndex n)) ∧ Agree a.padToNext b.padToNext ∧
    Agree a.nextPre b.nextPre ∧ Agree a.nextPost b.nextPost ∧ Agree a.nextDev b.nextDev ∧ Agree a.normalize b.normalize ∧
    a.nextEpoch ==ₚ b.nextEpoch ∧ a.toStable ==ₚ b.toStable ∧
    (∀ (p q d : Option Tag) (l : Option Local), a.setTagsAndLocal p q d l ==ₚ b.setTagsAndLocal p q d l ∧
      a.setTags p q d ==ₚ b.setTags p q d ∧ a.setPre p ==ₚ b.setPre p ∧ a.setPost q ==ₚ b.setPost q ∧ a.setDev d ==ₚ b.setDev d ∧
      a.setLocal l ==ₚ b.setLocal l ∧ a.setDevAndLocal d l ==ₚ b.setDevAndLocal d l) ∧
    (∀ c : Version, a.weaken c = b.weaken c ∧ c.weaken a ==ₚ c.weaken b) := by
  have hc := SameContent.of_eq ha hb h
  have hre := rebuilt_eq ha hb hc
  have hat : ∀ i : Nat, Agree (a.nextAt i) (b.nextAt i) := by
    intro i
    cases hs : a.isStable with
    | true =>
      obtain ⟨w, w1, w2⟩ := nextAt_stable ha hs i
      obtain ⟨x, x1, x2⟩ := nextAt_stable hb (hc.stable.symm.trans hs) i
      exact .inl ⟨w, x, w1, x1, (veq_iff _ _).2 (w2.key_eq hc x2)⟩
    | false =>
      obtain ⟨w, w1, w2⟩ := nextAt_unstable ha hs i
      obtain ⟨x, x1, x2⟩ := nextAt_unstable hb (hc.stable.symm.trans hs) i
      exact .inl ⟨w, x, w1, x1, (veq_iff _ _).2 (w2.key_eq hc x2)⟩
  have pad : ∀ {u v : Version}, a ==ₚ u → b ==ₚ v → u ==ₚ v := by
    intro u v h1 h2
    rw [veq_iff] at h1 h2 ⊢
    rw [← h1, ← h2, hc.key]
  refine ⟨hat, ⟨hat 0, hat 1, hat 2, hat 2⟩, fun i x => ?_, fun m n => ?_, ?_, ?_, ?_, ?_, ?_, ?_, ?_, ?_, fun c => ⟨?_, ?_⟩⟩
  · obtain ⟨w, w1, w2, w3, w4⟩ := C06_set_at a ha i x
    obtain ⟨y, y1, y2, y3, y4⟩ := C06_set_at b hb i x
    refine .inl ⟨w, y, w1, y1, released_eq ?_ ?_ ?_ hc w4 y4⟩
    · exact (precision_pos_iff _).1 (by show 0 < w.precision; omega)
    · exact (precision_pos_iff _).1 (by show 0 < y.precision; omega)
    · intro j; rw [w2, y2, hc.part]
  · obtain ⟨⟨w, w1, w2, -⟩, -, -⟩ := C09_padding a ha m
    obtain ⟨⟨x, x1, x2, -⟩, -, -⟩ := C09_padding b hb n
    obtain ⟨-, ⟨w', w1', w2', -⟩, -⟩ := C09_padding a ha m
    obtain ⟨-, ⟨x', x1', x2', -⟩, -⟩ := C09_padding b hb n
    exact ⟨.inl ⟨w, x, w1, x1, pad w2 x2⟩, .inl ⟨w', x', w1', x1', pad w2' x2'⟩⟩
  · obtain ⟨-, -, ⟨w, w1, w2, -⟩⟩ := C09_padding a ha 0
    obtain ⟨-, -, ⟨x, x1, x2, -⟩⟩ := C09_padding b hb 0
    exact .inl ⟨w, x, w1, x1, pad w2 x2⟩
  · unfold Version.nextPre
    rw [← hc.pre]
    cases a.pre with
    | none =>
      cases Tag.default .pre with
      | error e => exact .inr ⟨e, rfl, rfl⟩
      | ok t => exact .inl ⟨_, _, rfl, rfl, hre _ _ _ _⟩
    | some p =>
      dsimp only
      cases p.next .pre with
      | error e => exact .inr ⟨e, rfl, rfl⟩
      | ok t => exact .inl ⟨_, _, rfl, rfl, hre _ _ _ _⟩
  · unfold Version.nextPost
    rw [← hc.post]
    cases a.post with
    | none =>
      cases Tag.default .post with
      | error e => exact .inr ⟨e, rfl, rfl⟩
      | ok t => exact .inl ⟨_, _, rfl, rfl, by
          have := hre a.pre (some t) none none
          simpa only [Version.setPost, Version.withoutDevAndLocal, Version.setDevAndLocal, ← hc.pre] using this⟩
    | some p =>
      dsimp only
      cases p.next .post with
      | error e => exact .inr ⟨e, rfl, rfl⟩
      | ok t => exact .inl ⟨_, _, rfl, rfl, by
          have := hre a.pre (some t) none none
          simpa only [Version.setPost, Version.withoutDevAndLocal, Version.setDevAndLocal, ← hc.pre] using this⟩
  · unfold Version.nextDev
    rw [← hc.dev]
    cases a.dev with
    | none =>
      cases Tag.default .dev with
      | error e => exact .inr ⟨e, rfl, rfl⟩
      | ok t => exact .inl ⟨_, _, rfl, rfl, by
          have := hre a.pre a.post (some t) none
          simpa only [Version.setDev, Version.withoutLocal, Version.setLocal, ← hc.pre, ← hc.post] using this⟩
    | some p =>
      dsimp only
      cases p.next .dev with
      | error e => exact .inr ⟨e, rfl, rfl⟩
      | ok t => exact .inl ⟨_, _, rfl, rfl, by
          have := hre a.pre a.post (some t) none
          simpa only [Version.setDev, Version.withoutLocal, Version.setLocal, ← hc.pre, ← hc.post] using this⟩
  · unfold Version.normalize
    rw [← hc.pre, ← hc.post, ← hc.dev]
    cases Version.normalizeTag .pre a.pre with
    | error e => exact .inr ⟨e, rfl, rfl⟩
    | ok p =>
      cases Version.normalizeTag .post a.post with
      | error e => exact .inr ⟨e, rfl, rfl⟩
      | ok q =>
        cases Version.normalizeTag .dev a.dev with
        | error e => exact .inr ⟨e, rfl, rfl⟩
        | ok d => exact .inl ⟨_, _, rfl, rfl, by
            have := hre p q d a.local_
            simpa only [Version.setTags, ← hc.local_] using this⟩
  · rw [veq_iff, key_eq_iff]
    have := (key_eq_iff _ _).1 hc.key
    refine ⟨?_, this.2⟩
    show (a.epoch.nextValue).value = (b.epoch.nextValue).value
    rw [hc.epoch]
  · unfold Version.toStable
    rw [← hc.stable]
    split
    · exact h
    · exact hre _ _ _ _
  · intro p q d l
    refine ⟨hre _ _ _ _, ?_, ?_, ?_, ?_, ?_, ?_⟩
    · have := hre p q d a.local_
      simpa only [Version.setTags, ← hc.local_] using this
    · have := hre p a.post a.dev a.local_
      simpa only [Version.setPre, ← hc.post, ← hc.dev, ← hc.local_] using this
    · have := hre a.pre q a.dev a.local_
      simpa only [Version.setPost, ← hc.pre, ← hc.dev, ← hc.local_] using this
    · have := hre a.pre a.post d a.local_
      simpa only [Version.setDev, ← hc.pre, ← hc.post, ← hc.local_] using this
    · have := hre a.pre a.post a.dev l
      simpa only [Version.setLocal, ← hc.pre, ← hc.post, ← hc.dev] using this
    · have := hre a.pre a.post d l
      simpa only [Version.setDevAndLocal, ← hc.pre, ← hc.post] using this
  · unfold Version.weaken
    rw [show a.isLocal = b.isLocal by simp only [Version.isLocal, hc.local_],
      show a.isPostRelease = b.isPostRelease by simp only [Version.isPostRelease, hc.post]]
  · exact weaken_eq ha hb hc c

example : Agree (exVersion [1, 2] (some rcTag)).nextMinor (exVersion [1, 2, 0] (some rcTag)).nextMinor ∧
    Agree ((exVersion [1]).setAt 3 5) ((exVersion [1, 0]).setAt 3 5) :=
  ⟨(C95_changes _ _ (by decide +kernel) (by decide +kernel) (by decide +kernel)).2.1.2.1,
    (C95_changes _ _ (by decide +kernel) (by decide +kernel) (by decide +kernel)).2.2.1 3 5⟩

/-- C95. `next_breaking` of equal versions gives equal versions exactly if the caret operator reads them the same way. -/
theorem C95_breaking (a b : Version) (ha : a.Sane) (hb : b.Sane) (h : a ==ₚ b) :
    Agree a.nextBreaking b.nextBreaking ↔ OpType.caret.SameReading a b := by
  have hc := SameContent.of_eq ha.valid hb.valid h
  obtain ⟨w, x, w1, x1, hk⟩ := caret_ends ha.valid hb.valid hc
  rw [show a.nextBreaking = .ok w from w1, show b.nextBreaking = .ok x from x1]
  rcases hk with ⟨hp, hk⟩ | ⟨hp, i, j, hij, w2, x2⟩
  · exact ⟨fun _ => hp, fun _ => .inl ⟨w, x, rfl, rfl, (veq_iff _ _).2 hk⟩⟩
  · refine ⟨fun hag => ?_, fun hr => absurd hr hp⟩
    rcases hag with ⟨_, _, h1, h2, h3⟩ | ⟨e, h1, -⟩
    · cases h1; cases h2
      rw [veq_iff] at h3
      rcases Nat.lt_or_gt_of_ne hij with hij | hij
      · exact absurd h3 (w2.key_lt hc hb.nonNeg hij x2).ne'
      · exact absurd h3 (x2.key_lt hc.symm ha.nonNeg hij w2).ne
    · cases h1

example : (exVersion [0]).nextBreaking = .ok (exVersion [1]) ∧ (exVersion [0, 0]).nextBreaking = .ok (exVersion [0, 1]) ∧
    Agree (exVersion [0, 1]).nextBreaking (exVersion [0, 1, 0]).nextBreaking :=
  ⟨by decide +kernel, by decide +kernel, (C95_breaking _ _ ⟨by decide +kernel, by decide +kernel⟩ ⟨by decide +kernel, by decide +kernel⟩
    (by decide +kernel)).2 (by unfold OpType.SameReading; decide)⟩

theorem semantic_parts {v : Version} (hv : v.Valid) (h : 3 < v.precision) :
    ∃ w, v.toSemantic = .ok w ∧ w.release.parts ≠ [] ∧
      (∀ j, w.release.part j = if j < 2 then v.release.part j else if j = 2 then v.release.part 2 + 1 else 0) ∧
      w = { v with release := w.release } := by
  have h3 : v.release.hasAt 3 = true := by
    unfold Release.hasAt; unfold Version.precision at h; simp only [gt_iff_lt, decide_eq_true_eq]; omega
  obtain ⟨q, h1, h2, hg⟩ := nextAt_nat v.release hv.release 2
  have h1' : v.release.nextPatch = .ok q := h1
  have hs : q.slice 3 = .ok ⟨q.parts.take 3⟩ := by
    have := slice_nat q 2
    rw [show increment ((2 : Nat) : Int) = 3 from rfl] at this
    rw [this, create_ok]
    rw [← List.length_pos_iff, List.length_take]
    unfold Release.precision at h2; omega
  have hlen : (q.parts.take 3).length = 3 := by
    rw [List.length_take]; unfold Release.precision at h2; omega
  refine ⟨{ v with release := ⟨q.parts.take 3⟩ }, by simp [Version.toSemantic, Release.toSemantic, h3, h1', hs, bind, Except.bind],
    by simp only; rw [← List.length_pos_iff, hlen]; omega, fun j => ?_, rfl⟩
  have := hg j
  simp only [Release.part, List.getD_eq_getElem?_getD, List.getElem?_take] at this ⊢
  by_cases hj : j < 3
  · rw [if_pos hj, this]
  · rw [if_neg hj, if_neg (by omega), if_neg (by omega)]; rfl

/-- C95. `to_semantic` of equal versions gives equal versions exactly if both or neither have more than three parts. -/
theorem C95_semantic (a b : Version) (ha : a.Sane) (hb : b.Sane) (h : a ==ₚ b) :
    Agree a.toSemantic b.toSemantic ↔ (3 < a.precision ↔ 3 < b.precision) := by
  have hc := SameContent.of_eq ha.valid hb.valid h
  obtain ⟨w, w1, w2, w3, w4, w5, w6⟩ := C08_to_semantic a ha.valid ha.nonNeg
  obtain ⟨x, x1, x2, x3, x4, x5, x6⟩ := C08_to_semantic b hb.valid hb.nonNeg
  simp only [vlt_iff, veq_iff] at w4 w5 x4 x5
  rw [w1, x1]
  have hag : Agree (.ok w) (.ok x) ↔ w.key = x.key := by
    constructor
    · rintro (⟨_, _, h1, h2, h3⟩ | ⟨e, h1, -⟩)
      · cases h1; cases h2; exact (veq_iff _ _).1 h3
      · cases h1
    · exact fun hk => .inl ⟨w, x, rfl, rfl, (veq_iff _ _).2 hk⟩
  rw [hag]
  by_cases pa : 3 < a.precision <;> by_cases pb : 3 < b.precision
  · simp only [pa, pb, iff_true]
    obtain ⟨w', e1, e2, e3, e4⟩ := semantic_parts ha.valid pa
    obtain ⟨x', f1, f2, f3, f4⟩ := semantic_parts hb.valid pb
    obtain rfl := Except.ok.inj (w1.symm.trans e1)
    obtain rfl := Except.ok.inj (x1.symm.trans f1)
    rw [← veq_iff]
    refine released_eq e2 f2 (fun j => ?_) hc e4 f4
    rw [e3, f3]
    simp only [hc.part]
  · simp only [pa, pb, iff_false, not_true_eq_false]
    have h1 := w5 pa
    have h2 := x4 (by omega)
    rw [← h2, ← hc.key]
    exact h1.ne'
  · simp only [pa, pb, iff_true, iff_false]
    have h1 := w4 (by omega)
    have h2 := x5 pb
    rw [← h1, hc.key]
    exact h2.ne
  · simp only [pa, pb, iff_true]
    rw [← w4 (by omega), ← x4 (by omega), hc.key]

example : exVersion [1, 2, 3] ==ₚ exVersion [1, 2, 3, 0] ∧ (exVersion [1, 2, 3]).toSemantic = .ok (exVersion [1, 2, 3]) ∧
    (exVersion [1, 2, 3, 0]).toSemantic = .ok (exVersion [1, 2, 4]) ∧
    ¬ Agree (exVersion [1, 2, 3]).toSemantic (exVersion [1, 2, 3, 0]).toSemantic :=
  ⟨by decide +kernel, by decide +kernel, by decide +kernel, fun h => absurd ((C95_semantic _ _ ⟨by decide +kernel, by decide +kernel⟩
    ⟨by decide +kernel, by decide +kernel⟩ (by decide +kernel)).1 h) (by decide)⟩

end Verif
