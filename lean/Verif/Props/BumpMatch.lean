import Verif.Props.Bumps
import Verif.Props.OperatorOrder
/-!
# C117: which requirements on a version its bumps satisfy
-/

namespace Verif

variable {v w x : Version}

/-- Whether a bump lies in a window that ends in another bump of the same version. -/
theorem Bumped.accepted {next : Version → Except PyErr Version} {i j : Nat} (h : next v = .ok x) (hx : Bumped i v x) (hw : Bumped j v w)
    (hv : v.Sane) : Version.chained next w v = .ok (decide (i < j)) := by
  rw [chained_ok h, Except.ok.injEq, Bool.eq_iff_iff, Bool.and_eq_true, vle_iff, vlt_iff, decide_eq_true_iff]
  have := hx.le_bumped_iff hw hv
  constructor
  · rintro ⟨-, hlt⟩
    by_contra hc
    exact not_lt.2 (this.2 (by omega)) hlt
  · intro hij
    exact ⟨le_of_lt (hw.lt hv.valid hv.nonNeg), hx.lt_bumped hw hij hv⟩

/-- C117. The bump of a stable version at index `j` satisfies `^` of that version iff `j` is to the right of the leftmost
non-zero part. -/
theorem C117_caret (v w : Version) (hv : v.Sane) (hs : v.pre = none ∧ v.dev = none) (i j : Nat) (hi : CaretIndex v.release i)
    (hw : v.nextAt j = .ok w) : w.matchesCaret v = .ok (decide (i < j)) := by
  obtain ⟨x, h1, h2, -⟩ := caret_spec hv.valid
  obtain ⟨k, hk, hb⟩ := h2 ((stable_iff v).2 hs)
  obtain rfl := caretIndex_unique hi hk
  obtain ⟨w', e, hb'⟩ := nextAt_stable hv.valid ((stable_iff v).2 hs) j
  obtain rfl := Except.ok.inj (hw.symm.trans e)
  exact hb.accepted h1 hb' hv

example : (exVersion [0, 2, 4]).matchesCaret (exVersion [0, 2, 3]) = .ok true ∧ (exVersion [0, 3, 0]).matchesCaret (exVersion [0, 2, 3]) = .ok false :=
  ⟨C117_caret _ _ ⟨by decide +kernel, by decide +kernel⟩ ⟨rfl, rfl⟩ 1 2 (by decide +kernel) (by decide +kernel),
    C117_caret _ _ ⟨by decide +kernel, by decide +kernel⟩ ⟨rfl, rfl⟩ 1 1 (by decide +kernel) (by decide +kernel)⟩

/-- C117. It satisfies `~` iff `j` is at least 2, or at least 1 if the version has one part only. -/
theorem C117_tilde (v w : Version) (hv : v.Sane) (hs : v.pre = none ∧ v.dev = none) (j : Nat) (hw : v.nextAt j = .ok w) :
    w.matchesTilde v = .ok (decide (min 2 v.release.precision ≤ j)) := by
  have hpos : 0 < v.release.precision := (precision_pos_iff _).2 hv.valid.release
  obtain ⟨x, h1, h2, -⟩ := tilde_spec hv.valid
  obtain ⟨w', e, hb'⟩ := nextAt_stable hv.valid ((stable_iff v).2 hs) j
  obtain rfl := Except.ok.inj (hw.symm.trans e)
  refine ((h2 ((stable_iff v).2 hs)).accepted h1 hb' hv).trans ?_
  rw [Except.ok.injEq, decide_eq_decide]
  split <;> omega

example : (exVersion [1, 1]).matchesTilde (exVersion [1]) = .ok true ∧ (exVersion [1, 3]).matchesTilde (exVersion [1, 2]) = .ok false :=
  ⟨C117_tilde _ _ ⟨by decide +kernel, by decide +kernel⟩ ⟨rfl, rfl⟩ 1 (by decide +kernel),
    C117_tilde _ _ ⟨by decide +kernel, by decide +kernel⟩ ⟨rfl, rfl⟩ 1 (by decide +kernel)⟩

/-- C117. It satisfies `~=` iff `j` is the last index or beyond. -/
theorem C117_tilde_equal (v w : Version) (hv : v.Sane) (hs : v.pre = none ∧ v.dev = none) (hp : 2 ≤ v.release.precision) (j : Nat)
    (hw : v.nextAt j = .ok w) : w.matchesTildeEqual v = .ok (decide (v.release.precision - 1 ≤ j)) := by
  obtain ⟨x, h1, hb⟩ := (tildeEqual_spec hv.valid).2 hp
  obtain ⟨w', e, hb'⟩ := nextAt_stable hv.valid ((stable_iff v).2 hs) j
  obtain rfl := Except.ok.inj (hw.symm.trans e)
  refine (hb.accepted h1 hb' hv).trans ?_
  rw [Except.ok.injEq, decide_eq_decide]
  omega

/-- C117. Of 1.2.3 the next minor version satisfies `^`, not `~` or `~=`; the next micro version satisfies all three. Of
0.2.3 the next minor version satisfies none. -/
example : (exVersion [1, 3, 0]).matchesCaret (exVersion [1, 2, 3]) = .ok true ∧ (exVersion [1, 3, 0]).matchesTilde (exVersion [1, 2, 3]) = .ok false ∧
    (exVersion [1, 3, 0]).matchesTildeEqual (exVersion [1, 2, 3]) = .ok false ∧ (exVersion [1, 2, 4]).matchesCaret (exVersion [1, 2, 3]) = .ok true ∧
    (exVersion [1, 2, 4]).matchesTilde (exVersion [1, 2, 3]) = .ok true ∧ (exVersion [1, 2, 4]).matchesTildeEqual (exVersion [1, 2, 3]) = .ok true ∧
    (exVersion [0, 3, 0]).matchesCaret (exVersion [0, 2, 3]) = .ok false ∧ (exVersion [0, 2, 3]).nextAt 1 = .ok (exVersion [0, 3, 0]) ∧
    CaretIndex (exVersion [0, 2, 3]).release 1 := by decide +kernel

/-- C117. It satisfies `== v.*`, where `v` has no tags, iff `j` is the last index or beyond, and `!= v.*`
iff not. -/
theorem C117_wildcard (v w : Version) (hv : v.Sane) (hf : v.pre = none ∧ v.post = none ∧ v.dev = none)
    (j : Nat) (hw : v.nextAt j = .ok w) :
    w.matchesWildcardEqual v = .ok (decide (v.release.precision - 1 ≤ j)) ∧
      w.matchesWildcardNotEqual v = .ok (decide (j < v.release.precision - 1)) := by
  by_cases hp : 2 ≤ v.release.precision
  case neg =>
    have h0 : v.release.precision - 1 = 0 := by omega
    have e : w.matchesWildcardEqual v = .ok true := by
      have := (wildcard_spec hv.valid).1 hf.1 hf.2.1 hf.2.2 (by
        have := (precision_pos_iff _).2 hv.valid.release
        omega)
      unfold Version.matchesWildcardEqual
      rw [this]
      rfl
    have e' : w.matchesWildcardNotEqual v = .ok false := by
      unfold Version.matchesWildcardNotEqual; rw [e]; rfl
    rw [e, e', h0]
    simp
  obtain ⟨x, h1, hb⟩ := (wildcard_spec hv.valid).2.1 hf.1 hf.2.1 hf.2.2 hp
  obtain ⟨w', e, hb'⟩ := nextAt_stable hv.valid ((stable_iff v).2 ⟨hf.1, hf.2.2⟩) j
  obtain rfl := Except.ok.inj (hw.symm.trans e)
  have ha := hb.accepted (next := fun _ => .ok x) rfl hb' hv
  rw [chained_ok (next := fun _ => .ok x) (a := v) rfl] at ha
  have e1 : w.matchesWildcardEqual v = .ok (decide (v.release.precision - 1 ≤ j)) := by
    rw [wildcardEqual_ok h1, Except.ok.inj ha, Except.ok.injEq, decide_eq_decide]
    omega
  refine ⟨e1, ?_⟩
  unfold Version.matchesWildcardNotEqual
  rw [e1]
  show Except.ok (!decide _) = _
  rw [Except.ok.injEq, ← decide_not, decide_eq_decide]
  omega

example : (exVersion [1, 3]).matchesWildcardEqual (exVersion [1, 2]) = .ok true ∧ (exVersion [1, 3]).matchesWildcardNotEqual (exVersion [1, 2]) = .ok false :=
  C117_wildcard _ _ ⟨by decide +kernel, by decide +kernel⟩ ⟨rfl, rfl, rfl⟩ 1 (by decide +kernel)

/-- C117. It satisfies `>`, `>=` and `!=`, and none of `<`, `<=` and `==`. -/
theorem C117_plain (v w : Version) (hv : v.Sane) (hs : v.pre = none ∧ v.dev = none) (j : Nat) (hw : v.nextAt j = .ok w) :
    w.matchesGreater v = .ok true ∧ w.matchesGreaterOrEqual v = .ok true ∧ w.matchesNotEqual v = .ok true ∧ w.matchesLess v = .ok false ∧
      w.matchesLessOrEqual v = .ok false ∧ w.matchesEqual v = .ok false := by
  obtain ⟨w', e, hb'⟩ := nextAt_stable hv.valid ((stable_iff v).2 hs) j
  obtain rfl := Except.ok.inj (hw.symm.trans e)
  have hl : v.key < w.key := hb'.lt hv.valid hv.nonNeg
  have ne : PyCmp.eq w v = false := by
    rw [Bool.eq_false_iff]; exact fun h => absurd ((veq_iff _ _).1 h) (ne_of_gt hl)
  refine ⟨congrArg _ ((vgt_iff _ _).2 hl), congrArg _ ((vge_iff _ _).2 (le_of_lt hl)), congrArg (fun b => Except.ok (!b)) ne, congrArg Except.ok ?_, congrArg Except.ok ?_,
    congrArg _ ne⟩
  · rw [Bool.eq_false_iff]; exact fun h => lt_asymm hl ((vlt_iff _ _).1 h)
  · rw [Bool.eq_false_iff]; exact fun h => absurd hl (not_lt.2 ((vle_iff _ _).1 h))

example : (exVersion [1, 3]).matchesWildcardEqual (exVersion [1, 2]) = .ok true ∧ (exVersion [2, 0]).matchesWildcardEqual (exVersion [1, 2]) = .ok false ∧
    (exVersion [2, 0]).matchesWildcardNotEqual (exVersion [1, 2]) = .ok true ∧ (exVersion [2, 0]).matchesGreater (exVersion [1, 2]) = .ok true := by
  decide +kernel

/-- C117. The next post-release of a stable version satisfies `^`, `~`, `~=`, `>`, `>=` of it. -/
theorem C117_post (v w : Version) (hv : v.Sane) (hs : v.pre = none ∧ v.dev = none) (hw : v.nextPost = .ok w) :
    w.matchesCaret v = .ok true ∧ w.matchesTilde v = .ok true ∧ (2 ≤ v.release.precision → w.matchesTildeEqual v = .ok true) ∧
      w.matchesGreater v = .ok true ∧ w.matchesGreaterOrEqual v = .ok true := by
  obtain ⟨w', q, e, hlt, rfl, -⟩ := C11_next_post v hv.valid
  obtain rfl := Except.ok.inj (hw.symm.trans e)
  have hlt := (vlt_iff _ _).1 hlt
  have below : ∀ {i : Nat} {x : Version}, Bumped i v x → (⟨v.epoch, v.release, v.pre, some q, none, none⟩ : Version).key < x.key := by
    intro i x hx
    rw [key_lt_iff]
    exact .inr ⟨by rw [hx.numbers.1], .inl (compareParts_lt_of_below _ _ hv.valid.release hx.valid.release hv.nonNeg (below_nextAt hx.numbers.2))⟩
  obtain ⟨x, h1, h2, -⟩ := caret_spec hv.valid
  obtain ⟨k, hk, hb⟩ := h2 ((stable_iff v).2 hs)
  obtain ⟨y, t1, t2, -⟩ := tilde_spec hv.valid
  refine ⟨(chained_true h1).2 ⟨le_of_lt hlt, below hb⟩, (chained_true t1).2 ⟨le_of_lt hlt, below (t2 ((stable_iff v).2 hs))⟩, fun hp => ?_,
    congrArg _ ((vgt_iff _ _).2 hlt), congrArg _ ((vge_iff _ _).2 (le_of_lt hlt))⟩
  obtain ⟨z, z1, z2⟩ := (tildeEqual_spec hv.valid).2 hp
  exact (chained_true z1).2 ⟨le_of_lt hlt, below z2⟩

example : (exVersion [1, 2] none (some ⟨"post".toList, 0⟩)).matchesTildeEqual (exVersion [1, 2]) = .ok true :=
  (C117_post _ _ ⟨by decide +kernel, by decide +kernel⟩ ⟨rfl, rfl⟩ (by decide +kernel)).2.2.1 (by decide +kernel)

/-- What comes before a version satisfies no requirement of the kinds `^`, `~`, `~=`, `>`, `>=`, `==` on it. -/
theorem rejected_below (h : w <ₚ v) (hv : v.Sane) :
    w.matchesCaret v = .ok false ∧ w.matchesTilde v = .ok false ∧ (2 ≤ v.release.precision → w.matchesTildeEqual v = .ok false) ∧
      w.matchesGreater v = .ok false ∧ w.matchesGreaterOrEqual v = .ok false ∧ w.matchesEqual v = .ok false := by
  have h := (vlt_iff _ _).1 h
  have nle : PyCmp.le v w = false := by
    rw [Bool.eq_false_iff]; exact fun k => absurd h (not_lt.2 ((vle_iff _ _).1 k))
  have low : ∀ {next : Version → Except PyErr Version} {x : Version}, next v = .ok x → Version.chained next w v = .ok false := by
    intro next x hx
    rw [chained_ok hx, nle]; rfl
  obtain ⟨x, h1, -⟩ := caret_spec hv.valid
  obtain ⟨y, t1, -⟩ := tilde_spec hv.valid
  refine ⟨low h1, low t1, fun hp => ?_, congrArg Except.ok ?_, congrArg Except.ok ?_, congrArg Except.ok ?_⟩
  · obtain ⟨z, z1, -⟩ := (tildeEqual_spec hv.valid).2 hp
    exact low z1
  · rw [Bool.eq_false_iff]; exact fun k => lt_asymm h ((vgt_iff _ _).1 k)
  · rw [Bool.eq_false_iff]; exact fun k => absurd h (not_lt.2 ((vge_iff _ _).1 k))
  · rw [Bool.eq_false_iff]; exact fun k => absurd ((veq_iff _ _).1 k) (ne_of_lt h)

/-- C117. The next pre-release and the next development release of a stable version satisfy none of these: they come before
the version. -/
theorem C117_back (v w : Version) (hv : v.Sane) (hs : v.pre = none ∧ v.dev = none) (hw : v.nextPre = .ok w ∨ v.nextDev = .ok w) :
    w.matchesCaret v = .ok false ∧ w.matchesTilde v = .ok false ∧ (2 ≤ v.release.precision → w.matchesTildeEqual v = .ok false) ∧
      w.matchesGreater v = .ok false ∧ w.matchesGreaterOrEqual v = .ok false ∧ w.matchesEqual v = .ok false := by
  refine rejected_below ?_ hv
  rcases hw with hw | hw
  · obtain ⟨w', e, -, -, -, h⟩ := C11_next_pre_absent v hs.1
    obtain rfl := Except.ok.inj (hw.symm.trans e)
    exact h fun k => k.2 hs.2
  · obtain ⟨w', e, -, -, -, -, -, h, -⟩ := C11_next_dev v hv.valid
    obtain rfl := Except.ok.inj (hw.symm.trans e)
    exact (h hs.2).2

example : (exVersion [1, 2]).nextPost = .ok (exVersion [1, 2] none (some ⟨"post".toList, 0⟩)) ∧
    (exVersion [1, 2] none (some ⟨"post".toList, 0⟩)).matchesTilde (exVersion [1, 2]) = .ok true ∧
    (exVersion [1, 2]).nextPre = .ok (exVersion [1, 2] (some ⟨"alpha".toList, 0⟩)) ∧
    (exVersion [1, 2] (some ⟨"alpha".toList, 0⟩)).matchesCaret (exVersion [1, 2]) = .ok false := by decide +kernel

/-- C117, a surprise. Of a version with a pre or dev tag every bump is the final version. It satisfies `~=` unless the version
is a development release of a post-release; `^` if, moreover, the major part is not zero; it never satisfies `~`. -/
theorem C117_unstable (v w : Version) (hv : v.Sane) (hu : v.pre ≠ none ∨ v.dev ≠ none) (j : Nat) (hw : v.nextAt j = .ok w) :
    w.matchesCaret v = .ok (decide (v.release.part 0 ≠ 0 ∧ ¬ (v.pre = none ∧ v.post ≠ none ∧ v.dev ≠ none))) ∧
      w.matchesTilde v = .ok false ∧
      (2 ≤ v.release.precision → w.matchesTildeEqual v = .ok (decide (¬ (v.pre = none ∧ v.post ≠ none ∧ v.dev ≠ none)))) := by
  have hs := (unstable_iff v).2 hu
  obtain ⟨w', e, hd⟩ := nextAt_unstable hv.valid hs j
  obtain rfl := Except.ok.inj (hw.symm.trans e)
  have post : v.IsDevOfPost ↔ (v.pre = none ∧ v.post ≠ none ∧ v.dev ≠ none) := by
    unfold Version.IsDevOfPost; tauto
  have ne : v.key ≠ w.key := fun h => by
    have hk := (key_eq_iff _ _).1 h
    rcases hu with hu | hu
    · exact hu (hk.2.2.1.trans hd.final.1)
    · exact hu (hk.2.2.2.2.1.trans hd.final.2.2.1)
  have le_iff : v.key ≤ w.key ↔ ¬ (v.pre = none ∧ v.post ≠ none ∧ v.dev ≠ none) := by
    rw [← post, ← hd.lt_iff]
    exact ⟨fun h => lt_of_le_of_ne h ne, le_of_lt⟩
  have up : ∀ {i : Nat} {x : Version} {next : Version → Except PyErr Version}, next v = .ok x → Bumped i v x →
      Version.chained next w v = .ok (decide (¬ (v.pre = none ∧ v.post ≠ none ∧ v.dev ≠ none))) := by
    intro i x next h hx
    rw [chained_ok h, Except.ok.injEq, Bool.eq_iff_iff, Bool.and_eq_true, vle_iff, vlt_iff, decide_eq_true_iff, le_iff]
    exact and_iff_left (hd.lt_bumped hx hv)
  have same : ∀ {x : Version} {next : Version → Except PyErr Version}, next v = .ok x → Dropped v x → Version.chained next w v = .ok false := by
    intro x next h hx
    rw [chained_ok h, Except.ok.injEq, Bool.eq_false_iff]
    intro k
    rw [Bool.and_eq_true, vlt_iff] at k
    refine absurd k.2 (not_lt.2 (le_of_eq ?_))
    obtain ⟨a1, a2, a3, a4⟩ := hx.final
    obtain ⟨b1, b2, b3, b4⟩ := hd.final
    exact (key_eq_iff _ _).2 ⟨by rw [hx.epoch, hd.epoch], by rw [hx.release, hd.release], by rw [a1, b1], by rw [a2, b2], by rw [a3, b3], by rw [a4, b4]⟩
  obtain ⟨x, h1, -, h2, h3⟩ := caret_spec hv.valid
  obtain ⟨y, t1, -, t2⟩ := tilde_spec hv.valid
  refine ⟨?_, same t1 (t2 hs), fun hp => ?_⟩
  · by_cases hm : v.release.part 0 = 0
    · refine (same h1 (h3 hs hm)).trans ?_
      rw [Except.ok.injEq]
      exact (decide_eq_false fun h => h.1 hm).symm
    · refine (up h1 (h2 hs hm)).trans ?_
      rw [Except.ok.injEq, decide_eq_decide]
      exact ⟨fun h => ⟨hm, h⟩, fun h => h.2⟩
  · obtain ⟨z, z1, z2⟩ := (tildeEqual_spec hv.valid).2 hp
    exact up z1 z2

/-- `1.0` does not satisfy `~1.0-rc.1`, nor `0.2` `^0.2-rc.1`. -/
example : (exVersion [1, 0]).matchesTilde (exVersion [1, 0] (some rcTag)) = .ok false ∧ (exVersion [1, 0]).matchesCaret (exVersion [1, 0] (some rcTag)) = .ok true ∧
    (exVersion [0, 2]).matchesCaret (exVersion [0, 2] (some rcTag)) = .ok false ∧
    (exVersion [0, 2]).matchesTildeEqual (exVersion [0, 2] (some rcTag)) = .ok true ∧
    (exVersion [0, 2] (some rcTag)).nextAt 1 = .ok (exVersion [0, 2]) := by decide +kernel

/-! ## Repeating a bump -/

/-- `n` times `version = version.next_at(index)`. -/
def bumpTimes (i : Nat) : Nat → Version → Except PyErr Version
  | 0, v => .ok v
  | n + 1, v => do bumpTimes i n (← v.nextAt i)

theorem bumpTimes_succ (i : Nat) : ∀ (n : Nat) (v : Version), v.Sane → v.pre = none ∧ v.dev = none → ∃ w, bumpTimes i (n + 1) v = .ok w ∧ w.Sane ∧
    w.IsFinal ∧ w.epoch = v.epoch ∧
    ∀ j, w.release.part j = if j < i then v.release.part j else if j = i then v.release.part i + (n + 1 : Nat) else 0 := by
  intro n
  induction n with
  | zero =>
    intro v hv hs
    obtain ⟨w, h1, h2⟩ := nextAt_stable hv.valid ((stable_iff v).2 hs) i
    exact ⟨w, by simp only [bumpTimes, h1, bind, Except.bind], h2.sane hv, h2.final, h2.numbers.1, h2.numbers.2⟩
  | succ n ih =>
    intro v hv hs
    obtain ⟨w, h1, h2⟩ := nextAt_stable hv.valid ((stable_iff v).2 hs) i
    obtain ⟨x, x1, x2, x3, x4, x5⟩ := ih w (h2.sane hv) ⟨h2.final.1, h2.final.2.2.1⟩
    refine ⟨x, ?_, x2, x3, x4.trans h2.numbers.1, fun j => ?_⟩
    · show (do bumpTimes i (n + 1) (← v.nextAt i)) = _
      rw [h1]; exact x1
    · rw [x5, h2.numbers.2, h2.numbers.2]
      by_cases hj : j < i
      · simp only [if_pos hj]
      · by_cases he : j = i
        · subst he
          simp only [lt_irrefl, if_false, if_true]
          push_cast; omega
        · simp only [if_neg hj, if_neg he]

/-- C117. `n ≥ 1` bumps at the same index add `n` to that part: the result has no tags and the later parts are zero. -/
theorem C117_repeated (v : Version) (hv : v.Sane) (hs : v.pre = none ∧ v.dev = none) (i n : Nat) :
    ∃ w, bumpTimes i (n + 1) v = .ok w ∧ w.IsFinal ∧ w.epoch = v.epoch ∧
      ∀ j, w.release.part j = if j < i then v.release.part j else if j = i then v.release.part i + (n + 1 : Nat) else 0 := by
  obtain ⟨w, h1, -, h2⟩ := bumpTimes_succ i n v hv hs
  exact ⟨w, h1, h2⟩

/-- Ten bumps of the minor part of `1.2.3` give `1.12.0`. -/
example : bumpTimes 1 10 (exVersion [1, 2, 3]) = .ok (exVersion [1, 12, 0]) := by decide +kernel

/-- C117. Repeated major bumps pass every version of the same epoch or a smaller one. -/
theorem C117_passes (v x : Version) (hv : v.Sane) (hx : x.Sane) (hs : v.pre = none ∧ v.dev = none) (he : x.epoch.value ≤ v.epoch.value) :
    ∃ N, ∀ n, N ≤ n → ∃ w, bumpTimes 0 n v = .ok w ∧ x <ₚ w := by
  refine ⟨(x.release.part 0).toNat + 1, fun n hn => ?_⟩
  obtain ⟨m, rfl⟩ : ∃ m, n = m + 1 := ⟨n - 1, by omega⟩
  obtain ⟨w, h1, h2, h3, h4, h5⟩ := bumpTimes_succ 0 m v hv hs
  refine ⟨w, h1, (vlt_iff _ _).2 ((key_lt_iff _ _).2 ?_)⟩
  rcases lt_or_eq_of_le he with h | h
  · exact .inl (by rw [h4]; exact h)
  · refine .inr ⟨by rw [h4]; exact h, .inl (compareParts_lt_of_below _ _ hx.valid.release h2.valid.release hx.nonNeg ⟨0, fun k hk => by omega, ?_⟩)⟩
    rw [h5, if_neg (by omega), if_pos rfl]
    have := part_nonneg hv.nonNeg 0
    push_cast; omega

/-- From `1.2` on, the major bumps pass `7.3`: not the sixth, but the seventh. -/
example : (∃ N, ∀ n, N ≤ n → ∃ w, bumpTimes 0 n (exVersion [1, 2]) = .ok w ∧ exVersion [7, 3] <ₚ w) ∧
    bumpTimes 0 6 (exVersion [1, 2]) = .ok (exVersion [7, 0]) ∧ exVersion [7, 0] <ₚ exVersion [7, 3] ∧
    bumpTimes 0 7 (exVersion [1, 2]) = .ok (exVersion [8, 0]) ∧ exVersion [7, 3] <ₚ exVersion [8, 0] :=
  ⟨C117_passes _ _ ⟨by decide +kernel, by decide +kernel⟩ ⟨by decide +kernel, by decide +kernel⟩ ⟨rfl, rfl⟩ (by decide +kernel), (by decide +kernel)⟩

/-- C117. Repeated bumps at an index never reach a bump further to the left. -/
theorem C117_stays (v : Version) (hv : v.Sane) (hs : v.pre = none ∧ v.dev = none) (i j : Nat) (h : i < j) (n : Nat) :
    ∃ a b, v.nextAt i = .ok a ∧ bumpTimes j n v = .ok b ∧ b <ₚ a := by
  obtain ⟨a, a1, a2⟩ := nextAt_stable hv.valid ((stable_iff v).2 hs) i
  cases n with
  | zero => exact ⟨a, v, a1, rfl, (vlt_iff _ _).2 (a2.lt hv.valid hv.nonNeg)⟩
  | succ n =>
    obtain ⟨b, b1, b2, b3, b4, b5⟩ := bumpTimes_succ j n v hv hs
    refine ⟨a, b, a1, b1, (vlt_iff _ _).2 ((key_lt_iff _ _).2 (.inr ⟨by rw [b4, a2.numbers.1], .inl (compareParts_lt_of_below _ _ b2.valid.release
      a2.valid.release b2.nonNeg ⟨i, fun k hk => ?_, ?_⟩)⟩))⟩
    · rw [b5, a2.numbers.2, if_pos (by omega), if_pos hk]
    · rw [b5, a2.numbers.2, if_pos h, if_neg (by omega), if_pos rfl]; omega

example : bumpTimes 1 3 (exVersion [1, 2, 3]) = .ok (exVersion [1, 5, 0]) ∧ bumpTimes 0 8 (exVersion [1, 2, 3]) = .ok (exVersion [9, 0, 0]) ∧
    exVersion [8, 99] <ₚ exVersion [9, 0, 0] ∧ exVersion [1, 5, 0] <ₚ exVersion [2, 0, 0] := by decide +kernel

end Verif
