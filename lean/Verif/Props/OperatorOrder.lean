import Verif.Props.Bumps
import Verif.Props.Compat
import Verif.Proofs.Edges
/-!
# Operators on the same version (C111)

Which operators accept everything that another operator accepts, when both are against the same version: `Narrower t u a` is
about `t a` and `u a`.
-/

namespace Verif

/-- Every version that `t a` accepts is accepted by `u a`. -/
def Narrower (t u : OpType) (a : Version) : Prop :=
  ∀ v : Version, v.Sane → t.matches_ v a = .ok true → u.matches_ v a = .ok true

/-- `t a` accepts the versions from `a` up to `w`, without `w`. -/
def IsWindow (t : OpType) (a w : Version) : Prop := ∀ v, t.matches_ v a = .ok (PyCmp.le a v && PyCmp.lt v w)

section
variable {a w x : Version} {t u : OpType} {i j : Nat}

theorem IsWindow.narrower_iff (ht : IsWindow t a w) (hu : IsWindow u a x) (sa : a.Sane) (sx : x.Sane) :
    Narrower t u a ↔ w.key ≤ a.key ∨ w.key ≤ x.key := by
  have hit : ∀ v, t.matches_ v a = .ok true ↔ a.key ≤ v.key ∧ v.key < w.key := fun v => by
    rw [ht v, Except.ok.injEq, Bool.and_eq_true, vle_iff, vlt_iff]
  have hiu : ∀ v, u.matches_ v a = .ok true ↔ a.key ≤ v.key ∧ v.key < x.key := fun v => by
    rw [hu v, Except.ok.injEq, Bool.and_eq_true, vle_iff, vlt_iff]
  constructor
  · intro h
    by_contra hc
    obtain ⟨h1, h2⟩ := not_or.1 hc
    rw [not_le] at h1 h2
    rcases le_total a.key x.key with hl | hl
    · exact lt_irrefl _ ((hiu x).1 (h x sx ((hit x).2 ⟨hl, h2⟩))).2
    · exact absurd ((hiu a).1 (h a sa ((hit a).2 ⟨le_refl _, h1⟩))).2 (not_lt.2 hl)
  · rintro h v - hv
    obtain ⟨h1, h2⟩ := (hit v).1 hv
    rcases h with h | h
    · exact absurd (lt_of_lt_of_le h2 h) (not_lt.2 h1)
    · exact (hiu v).2 ⟨h1, lt_of_lt_of_le h2 h⟩

theorem Bumped.sane (h : Bumped i a w) (ha : a.Sane) : w.Sane := ⟨h.valid, h.nonNeg ha.nonNeg⟩

theorem Bumped.lt_bumped (h : Bumped i a w) (k : Bumped j a x) (hij : i < j) (ha : a.Sane) : x.key < w.key := by
  rw [key_lt_iff]
  refine .inr ⟨by rw [h.numbers.1, k.numbers.1], .inl (compareParts_lt_of_below _ _ k.valid.release h.valid.release (k.nonNeg ha.nonNeg)
    ⟨i, fun l hl => ?_, ?_⟩)⟩
  · rw [h.numbers.2, k.numbers.2, if_pos hl, if_pos (by omega)]
  · rw [h.numbers.2, k.numbers.2, if_pos hij, if_neg (by omega), if_pos rfl]; omega

theorem Bumped.le_bumped_iff (h : Bumped i a w) (k : Bumped j a x) (ha : a.Sane) : w.key ≤ x.key ↔ j ≤ i := by
  constructor
  · intro hle
    by_contra hc
    exact absurd (h.lt_bumped k (by omega) ha) (not_lt.2 hle)
  · exact fun hji => k.le_of_prefix h ⟨rfl, fun _ _ => rfl⟩ hji ha.nonNeg ha.nonNeg

theorem Dropped.sane (h : Dropped a w) (ha : a.Sane) : w.Sane := ⟨h.valid, by rw [h.release]; exact ha.nonNeg⟩

theorem Dropped.lt_bumped (h : Dropped a w) (k : Bumped j a x) (ha : a.Sane) : w.key < x.key := by
  have hw : Bumped j w x := ⟨k.final, k.valid, by
    refine ⟨by rw [k.numbers.1, h.epoch], fun l => ?_⟩
    rw [k.numbers.2, h.release]⟩
  exact hw.lt h.valid (h.sane ha).nonNeg

theorem Dropped.key_same (h : Dropped a w) (k : Dropped a x) : w.key = x.key := by
  obtain ⟨f1, f2, f3, f4⟩ := h.final
  obtain ⟨g1, g2, g3, g4⟩ := k.final
  exact (key_eq_iff _ _).2 ⟨by rw [h.epoch, k.epoch], by rw [h.release, k.release], by rw [f1, g1], by rw [f2, g2], by rw [f3, g3], by rw [f4, g4]⟩

theorem bumped_narrower (sa : a.Sane) (ht : IsWindow t a w) (hw : Bumped i a w) (hu : IsWindow u a x) (hx : Bumped j a x) :
    Narrower t u a ↔ j ≤ i := by
  rw [ht.narrower_iff hu sa (hx.sane sa), hw.le_bumped_iff hx sa, or_iff_right]
  exact not_le.2 (hw.lt sa.valid sa.nonNeg)

theorem dropped_narrower (sa : a.Sane) (ht : IsWindow t a w) (hw : Dropped a w) (hu : IsWindow u a x) (hx : Bumped j a x) :
    Narrower t u a ∧ ¬ Narrower u t a := by
  rw [ht.narrower_iff hu sa (hx.sane sa), hu.narrower_iff ht sa (hw.sane sa)]
  refine ⟨.inr (hw.lt_bumped hx sa).le, ?_⟩
  rintro (h | h)
  · exact absurd (hx.lt sa.valid sa.nonNeg) (not_lt.2 h)
  · exact absurd (hw.lt_bumped hx sa) (not_lt.2 h)

theorem dropped_same (sa : a.Sane) (ht : IsWindow t a w) (hw : Dropped a w) (hu : IsWindow u a x) (hx : Dropped a x) :
    Narrower t u a := by
  rw [ht.narrower_iff hu sa (hx.sane sa)]
  exact .inr (hw.key_same hx).le

end

theorem caret_window {a : Version} (sa : a.Sane) (hs : a.pre = none ∧ a.dev = none) :
    ∃ w i, IsWindow .caret a w ∧ CaretIndex a.release i ∧ Bumped i a w := by
  obtain ⟨w, h1, h2, -⟩ := caret_spec sa.valid
  obtain ⟨i, hi, hb⟩ := h2 ((stable_iff a).2 hs)
  exact ⟨w, i, chained_ok h1, hi, hb⟩

theorem tilde_window {a : Version} (sa : a.Sane) (hs : a.pre = none ∧ a.dev = none) :
    ∃ w, IsWindow .tilde a w ∧ Bumped (if 2 ≤ a.release.precision then 1 else 0) a w := by
  obtain ⟨w, h1, h2, -⟩ := tilde_spec sa.valid
  exact ⟨w, chained_ok h1, h2 ((stable_iff a).2 hs)⟩

theorem tildeEqual_window {a : Version} (sa : a.Sane) (hp : 2 ≤ a.release.precision) :
    ∃ w, IsWindow .tildeEqual a w ∧ Bumped (a.release.precision - 2) a w := by
  obtain ⟨w, h1, h2⟩ := (tildeEqual_spec sa.valid).2 hp
  exact ⟨w, chained_ok h1, h2⟩

theorem wildcard_window {a w : Version} (h : a.nextWildcardBreaking = .ok (some w)) {t : OpType} (ht : t = .wildcardDoubleEqual ∨ t = .wildcardEqual) :
    IsWindow t a w := by
  rcases ht with rfl | rfl <;> exact fun v => wildcardEqual_ok h v

/-- C111. `~` against `^`, for a stable version: `~ a` accepts no more than `^ a` unless major and minor are zero and there is a
third part; `^ a` accepts no more than `~ a` exactly if there is one part or major is zero. -/
theorem C111_tilde_caret (a : Version) (sa : a.Sane) (hs : a.pre = none ∧ a.dev = none) :
    (Narrower .tilde .caret a ↔ ¬ (3 ≤ a.release.precision ∧ a.release.part 0 = 0 ∧ a.release.part 1 = 0)) ∧
    (Narrower .caret .tilde a ↔ a.release.precision = 1 ∨ a.release.part 0 = 0) := by
  obtain ⟨w, i, hw, ⟨i1, i2, i3⟩, bw⟩ := caret_window sa hs
  obtain ⟨x, hx, bx⟩ := tilde_window sa hs
  have hpos : 0 < a.release.precision := (precision_pos_iff _).2 sa.valid.release
  rw [bumped_narrower sa hx bx hw bw, bumped_narrower sa hw bw hx bx]
  have part_zero : ∀ k, ¬ k < a.release.precision → a.release.part k = 0 := by
    intro k hk; simp only [Release.precision] at hk; simp [Release.part, hk]
  have p1 := part_zero 1
  have p2 := part_zero 2
  obtain rfl | rfl | rfl : i = 0 ∨ i = 1 ∨ i = 2 := by omega
  · constructor <;> split <;> omega
  · have := i2 0 (by omega)
    constructor <;> split <;> omega
  · have := i2 0 (by omega)
    have := i2 1 (by omega)
    constructor <;> split <;> omega

example : Narrower .tilde .caret (exVersion [1, 2]) ∧ ¬ Narrower .caret .tilde (exVersion [1, 2]) ∧
    ¬ Narrower .tilde .caret (exVersion [0, 0, 3]) ∧ Narrower .caret .tilde (exVersion [0, 0, 3]) := by
  have h1 := C111_tilde_caret (exVersion [1, 2]) ⟨by decide +kernel, by decide +kernel⟩ (by decide +kernel)
  have h2 := C111_tilde_caret (exVersion [0, 0, 3]) ⟨by decide +kernel, by decide +kernel⟩ (by decide +kernel)
  exact ⟨h1.1.2 (by decide +kernel), fun h => absurd (h1.2.1 h) (by decide +kernel), fun h => absurd (h2.1.1 h) (by decide +kernel), h2.2.2 (by decide +kernel)⟩

/-- C111. `~=` against `~`, for a stable version: with two parts `~` is strictly narrower, with three they accept the same, with
more `~=` is strictly narrower. -/
theorem C111_tilde_equal_tilde (a : Version) (sa : a.Sane) (hs : a.pre = none ∧ a.dev = none) (hp : 2 ≤ a.release.precision) :
    (Narrower .tilde .tildeEqual a ↔ a.release.precision ≤ 3) ∧ (Narrower .tildeEqual .tilde a ↔ 3 ≤ a.release.precision) := by
  obtain ⟨w, hw, bw⟩ := tildeEqual_window sa hp
  obtain ⟨x, hx, bx⟩ := tilde_window sa hs
  rw [bumped_narrower sa hx bx hw bw, bumped_narrower sa hw bw hx bx, if_pos hp]
  omega

example : (exVersion [1, 9]).matchesTildeEqual (exVersion [1, 2]) = .ok true ∧ (exVersion [1, 9]).matchesTilde (exVersion [1, 2]) = .ok false ∧
    Narrower .tilde .tildeEqual (exVersion [1, 2]) :=
  ⟨by decide +kernel, by decide +kernel,
    (C111_tilde_equal_tilde (exVersion [1, 2]) ⟨by decide +kernel, by decide +kernel⟩ (by decide +kernel) (by decide +kernel)).1.2 (by decide +kernel)⟩

/-- C111. `~=` against `^`, for a stable version: `~= a` accepts no more than `^ a` exactly if there are four parts or more, or one
of the parts before the last is not zero; `^ a` accepts no more than `~= a` exactly if all parts before the last but one are
zero and there are at most four parts. -/
theorem C111_tilde_equal_caret (a : Version) (sa : a.Sane) (hs : a.pre = none ∧ a.dev = none) (hp : 2 ≤ a.release.precision) :
    (Narrower .tildeEqual .caret a ↔ 4 ≤ a.release.precision ∨ ∃ k < a.release.precision - 1, a.release.part k ≠ 0) ∧
    (Narrower .caret .tildeEqual a ↔ a.release.precision ≤ 4 ∧ ∀ k < a.release.precision - 2, a.release.part k = 0) := by
  obtain ⟨w, i, hw, ⟨i1, i2, i3⟩, bw⟩ := caret_window sa hs
  obtain ⟨x, hx, bx⟩ := tildeEqual_window sa hp
  rw [bumped_narrower sa hx bx hw bw, bumped_narrower sa hw bw hx bx]
  constructor
  · constructor
    · intro h
      by_contra hc
      obtain ⟨h1, h2⟩ := not_or.1 hc
      rcases i3 with h3 | h3
      · exact h2 ⟨i, by omega, h3⟩
      · omega
    · rintro (h | ⟨k, hk, hk0⟩)
      · omega
      · by_contra hc
        exact hk0 (i2 k (by omega))
  · constructor
    · exact fun h => ⟨by omega, fun k hk => i2 k (by omega)⟩
    · rintro ⟨h1, h2⟩
      by_contra hc
      rcases i3 with h3 | h3
      · exact h3 (h2 i (by omega))
      · omega

example : Narrower .tildeEqual .caret (exVersion [1, 2]) ∧ Narrower .caret .tildeEqual (exVersion [1, 2]) ∧
    ¬ Narrower .tildeEqual .caret (exVersion [0, 2]) ∧ ¬ Narrower .caret .tildeEqual (exVersion [1, 2, 3]) := by
  have h1 := C111_tilde_equal_caret (exVersion [1, 2]) ⟨by decide +kernel, by decide +kernel⟩ (by decide +kernel) (by decide +kernel)
  have h2 := C111_tilde_equal_caret (exVersion [0, 2]) ⟨by decide +kernel, by decide +kernel⟩ (by decide +kernel) (by decide +kernel)
  have h3 := C111_tilde_equal_caret (exVersion [1, 2, 3]) ⟨by decide +kernel, by decide +kernel⟩ (by decide +kernel) (by decide +kernel)
  exact ⟨h1.1.2 (by decide +kernel), h1.2.2 (by decide +kernel), fun h => absurd (h2.1.1 h) (by decide +kernel), fun h => absurd (h3.2.1 h) (by decide +kernel)⟩

/-- C111. Wildcards, for a stable version. Without a post-release and with two parts or more (as parsed from `p.*`, with a zero
for the star), `== a` with a wildcard accepts what `~= a` accepts. With a post-release it accepts no more than `~`, `^` and `~=` do,
and `~=` always accepts more. -/
theorem C111_wildcard (a : Version) (sa : a.Sane) (hs : a.pre = none ∧ a.dev = none) (t : OpType) (ht : t = .wildcardDoubleEqual ∨ t = .wildcardEqual) :
    (a.post = none → 2 ≤ a.release.precision → Narrower t .tildeEqual a ∧ Narrower .tildeEqual t a) ∧
    (a.post ≠ none → Narrower t .tilde a ∧ Narrower t .caret a ∧ (2 ≤ a.release.precision → Narrower t .tildeEqual a ∧ ¬ Narrower .tildeEqual t a)) := by
  have hpos : 0 < a.release.precision := (precision_pos_iff _).2 sa.valid.release
  refine ⟨fun h hp => ?_, fun h => ?_⟩
  · obtain ⟨w, h1, bw⟩ := (wildcard_spec sa.valid).2.1 hs.1 h hs.2 hp
    obtain ⟨x, hx, bx⟩ := tildeEqual_window sa hp
    have hw := wildcard_window h1 ht
    rw [bumped_narrower sa hw bw hx bx, bumped_narrower sa hx bx hw bw]
    omega
  · obtain ⟨w, h1, bw⟩ := (wildcard_spec sa.valid).2.2.1 hs.1 h hs.2
    have hw := wildcard_window h1 ht
    obtain ⟨x, hx, bx⟩ := tilde_window sa hs
    obtain ⟨y, i, hy, ⟨i1, i2, i3⟩, bY⟩ := caret_window sa hs
    rw [bumped_narrower sa hw bw hx bx, bumped_narrower sa hw bw hy bY]
    have part_zero : ∀ k, ¬ k < a.release.precision → a.release.part k = 0 := by
      intro k hk; simp only [Release.precision] at hk; simp [Release.part, hk]
    refine ⟨by split <;> omega, ?_, fun hp => ?_⟩
    · rcases i3 with h3 | h3
      · by_contra hc
        exact h3 (part_zero i (by omega))
      · omega
    · obtain ⟨z, hz, bz⟩ := tildeEqual_window sa hp
      rw [bumped_narrower sa hw bw hz bz, bumped_narrower sa hz bz hw bw]
      omega

example : (exVersion [1, 2, 5]).matchesWildcardEqual (exVersion [1, 2, 0]) = .ok true ∧ (exVersion [1, 2, 5]).matchesTildeEqual (exVersion [1, 2, 0]) = .ok true ∧
    (exVersion [1, 3]).matchesTildeEqual (exVersion [1, 2] none (some postTag)) = .ok true ∧
    (exVersion [1, 3]).matchesWildcardEqual (exVersion [1, 2] none (some postTag)) = .ok false := by decide +kernel

/-- C111. For an unstable version, `~` and wildcards accept the same; `~=` accepts strictly more; `^` accepts the same if major
is zero, and otherwise strictly more, at least as much as `~=`, and the same as `~=` exactly if there are two parts. -/
theorem C111_unstable (a : Version) (sa : a.Sane) (hu : a.pre ≠ none ∨ a.dev ≠ none) (t : OpType) (ht : t = .wildcardDoubleEqual ∨ t = .wildcardEqual) :
    (Narrower .tilde t a ∧ Narrower t .tilde a) ∧
    (2 ≤ a.release.precision → Narrower .tilde .tildeEqual a ∧ ¬ Narrower .tildeEqual .tilde a) ∧
    (a.release.part 0 = 0 → Narrower .caret .tilde a ∧ Narrower .tilde .caret a) ∧
    (a.release.part 0 ≠ 0 → Narrower .tilde .caret a ∧ ¬ Narrower .caret .tilde a ∧
      (2 ≤ a.release.precision → Narrower .tildeEqual .caret a ∧ (Narrower .caret .tildeEqual a ↔ a.release.precision = 2))) := by
  have hs := (unstable_iff a).2 hu
  obtain ⟨x, hx, -, bx⟩ := tilde_spec sa.valid
  have bx := bx hs
  have hx : IsWindow .tilde a x := chained_ok hx
  obtain ⟨w, h1, bw⟩ := (wildcard_spec sa.valid).2.2.2 hs
  have hw := wildcard_window h1 ht
  obtain ⟨y, hy, -, b1, b2⟩ := caret_spec sa.valid
  have hy : IsWindow .caret a y := chained_ok hy
  refine ⟨⟨dropped_same sa hx bx hw bw, dropped_same sa hw bw hx bx⟩, fun hp => ?_, fun h0 => ?_, fun h0 => ?_⟩
  · obtain ⟨z, hz, bz⟩ := tildeEqual_window sa hp
    exact dropped_narrower sa hx bx hz bz
  · exact ⟨dropped_same sa hy (b2 hs h0) hx bx, dropped_same sa hx bx hy (b2 hs h0)⟩
  · obtain ⟨n1, n2⟩ := dropped_narrower sa hx bx hy (b1 hs h0)
    refine ⟨n1, n2, fun hp => ?_⟩
    obtain ⟨z, hz, bz⟩ := tildeEqual_window sa hp
    rw [bumped_narrower sa hz bz hy (b1 hs h0), bumped_narrower sa hy (b1 hs h0) hz bz]
    omega

/-- `~1.2rc1` rejects 1.2, `~=1.2rc1` and `^1.2rc1` accept it; `^0.2rc1` rejects 0.2, `~=0.2rc1` accepts it. -/
example : (exVersion [1, 2]).matchesTilde (exVersion [1, 2] (some rcTag)) = .ok false ∧ (exVersion [1, 2]).matchesTildeEqual (exVersion [1, 2] (some rcTag)) = .ok true ∧
    (exVersion [1, 2]).matchesCaret (exVersion [1, 2] (some rcTag)) = .ok true ∧ (exVersion [0, 2]).matchesCaret (exVersion [0, 2] (some rcTag)) = .ok false ∧
    (exVersion [0, 2]).matchesTildeEqual (exVersion [0, 2] (some rcTag)) = .ok true := by decide +kernel

/-- Pairs of operators that exclude each other. -/
inductive Opposite : OpType → OpType → Prop
  | doubleEqual : Opposite .doubleEqual .notEqual
  | equal : Opposite .equal .notEqual
  | less : Opposite .less .greaterOrEqual
  | lessOrEqual : Opposite .lessOrEqual .greater
  | wildcardDoubleEqual : Opposite .wildcardDoubleEqual .wildcardNotEqual
  | wildcardEqual : Opposite .wildcardEqual .wildcardNotEqual

/-- C111. Every version is accepted by exactly one operator of such a pair. -/
theorem C111_opposite (t u : OpType) (h : Opposite t u) (a : Version) (ha : a.Valid) (v : Version) :
    ∃ b, t.matches_ v a = .ok b ∧ u.matches_ v a = .ok (!b) := by
  have order : ∀ x y : Version, (!(PyCmp.lt x y)) = PyCmp.ge x y := fun x y => by
    rw [Bool.eq_iff_iff, vge_iff, Bool.not_eq_true', ← Bool.not_eq_true, vlt_iff, not_lt]
  have order' : ∀ x y : Version, (!(PyCmp.le x y)) = PyCmp.gt x y := fun x y => by
    rw [Bool.eq_iff_iff, vgt_iff, Bool.not_eq_true', ← Bool.not_eq_true, vle_iff, not_le]
  cases h with
  | doubleEqual => exact ⟨_, rfl, rfl⟩
  | equal => exact ⟨_, rfl, rfl⟩
  | less => exact ⟨_, rfl, by rw [order]; rfl⟩
  | lessOrEqual => exact ⟨_, rfl, by rw [order']; rfl⟩
  | wildcardDoubleEqual => exact C18_wildcard_not a v ha
  | wildcardEqual => exact C18_wildcard_not a v ha

example : (exVersion [1, 3]).matchesWildcardEqual (exVersion [1, 2, 0]) = .ok false ∧ (exVersion [1, 3]).matchesWildcardNotEqual (exVersion [1, 2, 0]) = .ok true ∧
    Opposite .wildcardEqual .wildcardNotEqual ∧ (exVersion [1, 2, 0]).Valid := ⟨by decide +kernel, by decide +kernel, .wildcardEqual, by decide +kernel⟩

/-- C111. Their sets are each other's complements: the complement of the first is the very set of the second, and the
complement of the second is `==` to the set of the first. -/
theorem C111_opposite_sets (t u : OpType) (h : Opposite t u) (a : Version) (sa : a.Sane) (lim : Nat) (x : VSet)
    (hx : t.translate lim a = .ok x) :
    ∃ y z, x.complement lim = .ok y ∧ u.translate lim a = .ok y ∧ y.complement lim = .ok z ∧ z.eq x = true := by
  have ht : t ≠ .tildeEqual ∧ u ≠ .tildeEqual := by cases h <;> simp
  have hn : x.Normal := normal_of_toSet (o := ⟨t, a⟩) sa.valid (fun e => absurd e ht.1) (lim := lim) hx
  obtain ⟨y, z, h1, h2, h3⟩ := C24_complement_involutive x hn lim
  refine ⟨y, z, h1, ?_, h2, h3⟩
  have broken : (Operator.mk u a).Broken → t.translate lim a = .error .valueError := by
    intro hb
    refine (C16_failure ⟨t, a⟩ ⟨sa.valid, sa.nonNeg, fun e => absurd e ht.1⟩ lim).2 ?_
    obtain ⟨b1, b2⟩ := hb
    refine ⟨b1, ?_⟩
    cases h <;> simp_all
  have hub : ¬ (Operator.mk u a).Broken := fun hb => by rw [broken hb] at hx; cases hx
  obtain ⟨s, hs⟩ := (C16_failure ⟨u, a⟩ ⟨sa.valid, sa.nonNeg, fun e => absurd e ht.2⟩ lim).1 hub
  have hs : u.translate lim a = .ok s := hs lim
  rw [hs]
  cases h with
  | less => cases hx; rw [← h1, ← hs]; rfl
  | lessOrEqual => cases hx; rw [← h1, ← hs]; rfl
  | doubleEqual =>
    cases hx
    simp only [OpType.translate, Version.translateNotEqual, h1, bind, Except.bind] at hs
    split at hs <;> simp_all
  | equal =>
    cases hx
    simp only [OpType.translate, Version.translateNotEqual, h1, bind, Except.bind] at hs
    split at hs <;> simp_all
  | wildcardDoubleEqual =>
    simp only [OpType.translate] at hx
    simp only [OpType.translate, Version.translateWildcardNotEqual, hx, h1, bind, Except.bind] at hs
    split at hs <;> simp_all
  | wildcardEqual =>
    simp only [OpType.translate] at hx
    simp only [OpType.translate, Version.translateWildcardNotEqual, hx, h1, bind, Except.bind] at hs
    split at hs <;> simp_all

example : OpType.lessOrEqual.translate 5 (exVersion [2]) = .ok (.item (exRange none (some [2]) false true)) ∧
    OpType.greater.translate 5 (exVersion [2]) = .ok (.item (exRange (some [2]) none false false)) ∧
    (VSet.item (exRange none (some [2]) false true)).complement 5 = .ok (.item (exRange (some [2]) none false false)) ∧
    Opposite .lessOrEqual .greater := ⟨rfl, rfl, by decide +kernel, .lessOrEqual⟩

/-- C111. Except for `<`, `<=`, `!=`, `!=` with a wildcard, and `==` with a wildcard on a version with one part and no tags (that is
`*`), no operator accepts versions before its own. -/
theorem C111_at_least (t : OpType) (a : Version) (sa : a.Sane) (h : t ∉ [.less, .lessOrEqual, .notEqual, .wildcardNotEqual])
    (hw : t ∈ [.wildcardDoubleEqual, .wildcardEqual] → ¬ (a.release.precision = 1 ∧ a.pre = none ∧ a.post = none ∧ a.dev = none)) :
    Narrower t .greaterOrEqual a := by
  have hpos : 0 < a.release.precision := (precision_pos_iff _).2 sa.valid.release
  have ge : ∀ v : Version, a.key ≤ v.key → OpType.greaterOrEqual.matches_ v a = .ok true := fun v h => by
    simp only [OpType.matches_, Version.matchesGreaterOrEqual, Except.ok.injEq, vge_iff]; exact h
  have chain : ∀ next v, Version.chained next v a = .ok true → a.key ≤ v.key := by
    intro next v h
    unfold Version.chained at h
    split at h
    · rename_i hl; exact (vle_iff _ _).1 hl
    · simp at h
  have wild : ∀ t, t = .wildcardDoubleEqual ∨ t = .wildcardEqual → (t ∈ [.wildcardDoubleEqual, .wildcardEqual] →
      ¬ (a.release.precision = 1 ∧ a.pre = none ∧ a.post = none ∧ a.dev = none)) → Narrower t .greaterOrEqual a := by
    intro t ht hw v _ hv
    obtain ⟨w, hn⟩ : ∃ w, a.nextWildcardBreaking = .ok (some w) := by
      obtain ⟨-, w2, w3, w4⟩ := wildcard_spec sa.valid
      have hw := hw (by rcases ht with rfl | rfl <;> simp)
      cases hs : a.isStable with
      | false => obtain ⟨w, h, -⟩ := w4 hs; exact ⟨w, h⟩
      | true =>
        obtain ⟨s1, s2⟩ := (stable_iff a).1 hs
        by_cases hp : a.post = none
        · obtain ⟨w, h, -⟩ := w2 s1 hp s2 (by
            by_contra hc; exact hw ⟨by omega, s1, hp, s2⟩)
          exact ⟨w, h⟩
        · obtain ⟨w, h, -⟩ := w3 s1 hp s2; exact ⟨w, h⟩
    have := wildcard_window hn ht v
    rw [hv] at this
    have := (Except.ok.inj this).symm
    rw [Bool.and_eq_true, vle_iff] at this
    exact ge v this.1
  cases t with
  | less => simp at h
  | lessOrEqual => simp at h
  | notEqual => simp at h
  | wildcardNotEqual => simp at h
  | tildeEqual => exact fun v _ hv => ge v (chain _ v hv)
  | caret => exact fun v _ hv => ge v (chain _ v hv)
  | tilde => exact fun v _ hv => ge v (chain _ v hv)
  | greaterOrEqual => exact fun v _ hv => hv
  | greater =>
    intro v _ hv
    simp only [OpType.matches_, Version.matchesGreater, Except.ok.injEq, vgt_iff] at hv
    exact ge v hv.le
  | doubleEqual =>
    intro v _ hv
    simp only [OpType.matches_, Version.matchesEqual, Except.ok.injEq, veq_iff] at hv
    exact ge v hv.ge
  | equal =>
    intro v _ hv
    simp only [OpType.matches_, Version.matchesEqual, Except.ok.injEq, veq_iff] at hv
    exact ge v hv.ge
  | wildcardDoubleEqual => exact wild _ (.inl rfl) hw
  | wildcardEqual => exact wild _ (.inr rfl) hw

/-- `== 5.*`, had it one part, is `*`; `== 5.0.*` is not. -/
example : Narrower .wildcardEqual .greaterOrEqual (exVersion [5, 0]) ∧ ¬ Narrower .wildcardEqual .greaterOrEqual (exVersion [5]) :=
  ⟨C111_at_least _ _ ⟨by decide +kernel, by decide +kernel⟩ (by decide) (fun _ => by decide +kernel),
    fun h => absurd (h (exVersion [1]) ⟨by decide +kernel, by decide +kernel⟩ (by decide +kernel)) (by decide +kernel)⟩

end Verif
