import Verif.Props.OperatorOrder
import Verif.Props.SetStrings
import Verif.Props.Shape
import Verif.Spec.Decide
/-!
# C133: `^`, `~`, `~=` and `== v.*` on two versions

C111 compares these operators on one version and C73 follows one of them through several versions. Here both differ.
-/

namespace Verif

/-- The part of a stable version whose bump ends what the operator accepts: for `^` the leftmost of the first three that is not
zero, or the last of these, for `~` the second or the only part, for `~=` the one
before the last. A wildcard is written with one more part, which is not compared; on a post-release, it is compared. -/
def Operator.EndsAt (o : Operator) (i : Nat) : Prop :=
  match o.type with
  | .caret => CaretIndex o.version.release i
  | .tilde => i + 1 = min 2 o.version.release.precision
  | .tildeEqual => i + 2 = o.version.release.precision
  | .wildcardDoubleEqual | .wildcardEqual =>
    (o.version.post = none → i + 2 = o.version.release.precision) ∧ (o.version.post ≠ none → i + 1 = o.version.release.precision)
  | _ => False

instance (o : Operator) (i : Nat) : Decidable (o.EndsAt i) := by
  unfold Operator.EndsAt
  split <;> infer_instance

namespace Windows

variable {o p : Operator} {i j : Nat}

/-- The versions that the operator accepts. -/
theorem accepted (ho : o.version.Valid) (hs : o.version.pre = none ∧ o.version.dev = none) (h : o.EndsAt i) :
    ∃ n, Bumped i o.version n ∧ ∀ x, o.accepts x = .ok true ↔ o.version.key ≤ x.key ∧ x.key < n.key := by
  obtain ⟨t, v⟩ := o
  change v.Valid at ho
  have stable := (stable_iff v).2 hs
  have wild : (v.post = none → i + 2 = v.release.precision) ∧ (v.post ≠ none → i + 1 = v.release.precision) →
      ∃ n, Bumped i v n ∧ ∀ x : Version, x.matchesWildcardEqual v = .ok true ↔ v.key ≤ x.key ∧ x.key < n.key := by
    rintro ⟨h1, h2⟩
    by_cases hp : v.post = none
    · obtain ⟨n, e, hb⟩ := (wildcard_spec ho).2.1 hs.1 hp hs.2 (by have := h1 hp; omega)
      rw [show v.release.precision - 2 = i by have := h1 hp; omega] at hb
      exact ⟨n, hb, fun x => by rw [wildcardEqual_ok e, Except.ok.injEq, Bool.and_eq_true, vle_iff, vlt_iff]⟩
    · obtain ⟨n, e, hb⟩ := (wildcard_spec ho).2.2.1 hs.1 hp hs.2
      rw [show v.release.precision - 1 = i by have := h2 hp; omega] at hb
      exact ⟨n, hb, fun x => by rw [wildcardEqual_ok e, Except.ok.injEq, Bool.and_eq_true, vle_iff, vlt_iff]⟩
  cases t
  case caret =>
    obtain ⟨n, e, hb, -⟩ := caret_spec ho
    obtain ⟨k, hk, hb⟩ := hb stable
    obtain rfl := caretIndex_unique h hk
    exact ⟨n, hb, fun x => chained_true e⟩
  case tilde =>
    obtain ⟨n, e, hb, -⟩ := tilde_spec ho
    have h : i + 1 = min 2 v.release.precision := h
    rw [show i = if 2 ≤ v.release.precision then 1 else 0 by split <;> omega]
    exact ⟨n, hb stable, fun x => chained_true e⟩
  case tildeEqual =>
    have h : i + 2 = v.release.precision := h
    obtain ⟨n, e, hb⟩ := (tildeEqual_spec ho).2 (by omega)
    rw [show v.release.precision - 2 = i by omega] at hb
    exact ⟨n, hb, fun x => chained_true e⟩
  case wildcardDoubleEqual => exact wild h
  case wildcardEqual => exact wild h
  all_goals exact h.elim

/-- A stable version in the window has the same bump. -/
theorem same_end {v w n m : Version} (hv : v.Sane) (hw : w.Sane) (sw : w.pre = none ∧ w.dev = none) (hn : Bumped i v n) (hm : Bumped i w m)
    (h1 : v.key ≤ w.key) (h2 : w.key < n.key) : m.key = n.key := by
  have hp : w.SamePrefix (i + 1) v := by
    rcases (hn.window hv.valid hv.nonNeg hw.valid hw.nonNeg h1).1 h2 with h | h
    · exact h
    · exact absurd h.2 (by simp [Version.LeadsToFinal, sw])
  exact le_antisymm (hn.le_of_prefix hm hp le_rfl hv.nonNeg hw.nonNeg)
    (hm.le_of_prefix hn ⟨hp.1.symm, fun k hk => (hp.2 k hk).symm⟩ le_rfl hw.nonNeg hv.nonNeg)

end Windows

/-- C133. Everything that the second requirement accepts is accepted by the first exactly if the first accepts the version of the
second, and the second does not end at a part further to the left. -/
theorem C133_implies (o p : Operator) (ho : o.version.Sane) (hp : p.version.Sane) (so : o.version.pre = none ∧ o.version.dev = none)
    (sp : p.version.pre = none ∧ p.version.dev = none) (i j : Nat) (hi : o.EndsAt i) (hj : p.EndsAt j) :
    (∀ x, p.accepts x = .ok true → o.accepts x = .ok true) ↔ o.accepts p.version = .ok true ∧ i ≤ j := by
  obtain ⟨n, bn, hn⟩ := Windows.accepted ho.valid so hi
  obtain ⟨m, bm, hm⟩ := Windows.accepted hp.valid sp hj
  obtain ⟨k, -, bk⟩ := nextAt_stable hp.valid ((stable_iff _).2 sp) i
  constructor
  · intro h
    have hv := h p.version ((hm _).2 ⟨le_rfl, bm.lt hp.valid hp.nonNeg⟩)
    refine ⟨hv, ?_⟩
    by_contra hc
    have e := Windows.same_end ho hp sp bn bk ((hn _).1 hv).1 ((hn _).1 hv).2
    have := ((hn _).1 (h k ((hm _).2 ⟨(bk.lt hp.valid hp.nonNeg).le, bm.lt_bumped bk (by omega) hp⟩))).2
    exact absurd e (ne_of_lt this)
  · rintro ⟨hv, hij⟩ x hx
    obtain ⟨h1, h2⟩ := (hn _).1 hv
    obtain ⟨x1, x2⟩ := (hm _).1 hx
    refine (hn _).2 ⟨h1.trans x1, lt_of_lt_of_le x2 ?_⟩
    rw [← Windows.same_end ho hp sp bn bk h1 h2]
    exact (bm.le_bumped_iff bk hp).2 hij

/-- `~1.2.5` implies `^1.2`; `^1.2.5` does not imply `~1.2`, though that accepts `1.2.5`; nor does `~0.0.3.1` imply `^0.0.3`. -/
example : (∀ x, (Operator.mk .tilde (exVersion [1, 2, 5])).accepts x = .ok true → (Operator.mk .caret (exVersion [1, 2])).accepts x = .ok true) ∧
    ¬ (∀ x, (Operator.mk .caret (exVersion [1, 2, 5])).accepts x = .ok true → (Operator.mk .tilde (exVersion [1, 2])).accepts x = .ok true) ∧
    ¬ (∀ x, (Operator.mk .tilde (exVersion [0, 0, 3, 1])).accepts x = .ok true → (Operator.mk .caret (exVersion [0, 0, 3])).accepts x = .ok true) := by
  refine ⟨(C133_implies (.mk .caret (exVersion [1, 2])) (.mk .tilde (exVersion [1, 2, 5])) ⟨by decide +kernel, by decide +kernel⟩ ⟨by decide +kernel, by decide +kernel⟩ ⟨rfl, rfl⟩ ⟨rfl, rfl⟩ 0 1
      (by decide +kernel) (by decide +kernel)).2 (by decide +kernel), fun h => ?_, fun h => ?_⟩
  · exact absurd (h (exVersion [1, 3]) (by decide +kernel)) (by decide +kernel)
  · exact absurd (h (exVersion [0, 0, 5]) (by decide +kernel)) (by decide +kernel)

/-- C133. Both requirements together, the second on the version that is not smaller, accept the versions from that one up to the
sooner of the two ends, which is a bump of it; or nothing, if the first does not accept it. -/
theorem C133_both (o p : Operator) (ho : o.version.Sane) (hp : p.version.Sane) (so : o.version.pre = none ∧ o.version.dev = none)
    (sp : p.version.pre = none ∧ p.version.dev = none) (i j : Nat) (hi : o.EndsAt i) (hj : p.EndsAt j) (h : o.version ≤ₚ p.version) :
    ∃ n, p.version.nextAt (max i j : Nat) = .ok n ∧ ∀ x,
      (o.accepts x = .ok true ∧ p.accepts x = .ok true) ↔ o.accepts p.version = .ok true ∧ p.version ≤ₚ x ∧ x <ₚ n := by
  obtain ⟨n, bn, hn⟩ := Windows.accepted ho.valid so hi
  obtain ⟨m, bm, hm⟩ := Windows.accepted hp.valid sp hj
  obtain ⟨k, -, bk⟩ := nextAt_stable hp.valid ((stable_iff _).2 sp) i
  obtain ⟨l, el, bl⟩ := nextAt_stable hp.valid ((stable_iff _).2 sp) (max i j)
  rw [vle_iff] at h
  refine ⟨l, el, fun x => ?_⟩
  rw [hn, hm, hn, vle_iff, vlt_iff]
  have lk : l.key ≤ k.key := (bl.le_bumped_iff bk hp).2 (le_max_left _ _)
  have lm : l.key ≤ m.key := (bl.le_bumped_iff bm hp).2 (le_max_right _ _)
  constructor
  · rintro ⟨⟨h1, h2⟩, h3, h4⟩
    have hlt := lt_of_le_of_lt h3 h2
    refine ⟨⟨h, hlt⟩, h3, ?_⟩
    have e := Windows.same_end ho hp sp bn bk h hlt
    rcases le_total i j with hij | hij
    · exact lt_of_lt_of_le h4 ((bm.le_bumped_iff bl hp).2 (by omega))
    · exact lt_of_lt_of_le h2 (e ▸ (bk.le_bumped_iff bl hp).2 (by omega))
  · rintro ⟨⟨-, h2⟩, h3, h4⟩
    exact ⟨⟨h.trans h3, lt_of_lt_of_le h4 (lk.trans (Windows.same_end ho hp sp bn bk h h2).le)⟩, h3, lt_of_lt_of_le h4 lm⟩

/-- `~1.2` and `^1.2.5` together are `>= 1.2.5, < 1.3.0`; `~1.2` and `^1.3` exclude each other. -/
example : (∀ x, ((Operator.mk .tilde (exVersion [1, 2])).accepts x = .ok true ∧ (Operator.mk .caret (exVersion [1, 2, 5])).accepts x = .ok true) ↔
      exVersion [1, 2, 5] ≤ₚ x ∧ x <ₚ exVersion [1, 3, 0]) ∧
    ¬ ∃ x, (Operator.mk .tilde (exVersion [1, 2])).accepts x = .ok true ∧ (Operator.mk .caret (exVersion [1, 3])).accepts x = .ok true := by
  refine ⟨fun x => ?_, fun ⟨x, hx⟩ => ?_⟩
  · obtain ⟨n, h1, h2⟩ := C133_both (.mk .tilde (exVersion [1, 2])) (.mk .caret (exVersion [1, 2, 5])) ⟨by decide +kernel, by decide +kernel⟩
      ⟨by decide +kernel, by decide +kernel⟩ ⟨rfl, rfl⟩ ⟨rfl, rfl⟩ 1 0 (by decide +kernel) (by decide +kernel) (by decide +kernel)
    obtain rfl := Except.ok.inj (h1.symm.trans (show _ = Except.ok (exVersion [1, 3, 0]) by decide +kernel))
    exact (h2 x).trans (and_iff_right (by decide +kernel))
  · obtain ⟨n, -, h2⟩ := C133_both (.mk .tilde (exVersion [1, 2])) (.mk .caret (exVersion [1, 3])) ⟨by decide +kernel, by decide +kernel⟩
      ⟨by decide +kernel, by decide +kernel⟩ ⟨rfl, rfl⟩ ⟨rfl, rfl⟩ 1 0 (by decide +kernel) (by decide +kernel) (by decide +kernel)
    exact absurd ((h2 x).1 hx).1 (by decide +kernel)

/-- C133. So two of these requirements on stable versions can be satisfied together exactly if one of them accepts the version of
the other. -/
theorem C133_meet (o p : Operator) (ho : o.version.Sane) (hp : p.version.Sane) (so : o.version.pre = none ∧ o.version.dev = none)
    (sp : p.version.pre = none ∧ p.version.dev = none) (i j : Nat) (hi : o.EndsAt i) (hj : p.EndsAt j) :
    (∃ x, o.accepts x = .ok true ∧ p.accepts x = .ok true) ↔ o.accepts p.version = .ok true ∨ p.accepts o.version = .ok true := by
  obtain ⟨n, bn, hn⟩ := Windows.accepted ho.valid so hi
  obtain ⟨m, bm, hm⟩ := Windows.accepted hp.valid sp hj
  have self : o.accepts o.version = .ok true ∧ p.accepts p.version = .ok true :=
    ⟨(hn _).2 ⟨le_rfl, bn.lt ho.valid ho.nonNeg⟩, (hm _).2 ⟨le_rfl, bm.lt hp.valid hp.nonNeg⟩⟩
  constructor
  · rintro ⟨x, h1, h2⟩
    rw [hn] at h1
    rw [hm] at h2
    rcases le_total o.version.key p.version.key with h | h
    · exact .inl ((hn _).2 ⟨h, lt_of_le_of_lt h2.1 h1.2⟩)
    · exact .inr ((hm _).2 ⟨h, lt_of_le_of_lt h1.1 h2.2⟩)
  · rintro (h | h)
    · exact ⟨_, h, self.2⟩
    · exact ⟨_, self.1, h⟩

/-- `== 1.2.*` and `^1.1` have versions in common, as `^1.1` accepts `1.2.0`; `== 1.2.*` does not accept `1.1`. -/
example : (∃ x, (Operator.mk .wildcardEqual (exVersion [1, 2, 0])).accepts x = .ok true ∧ (Operator.mk .caret (exVersion [1, 1])).accepts x = .ok true) ∧
    (Operator.mk .wildcardEqual (exVersion [1, 2, 0])).accepts (exVersion [1, 1]) = .ok false :=
  ⟨(C133_meet (.mk .wildcardEqual (exVersion [1, 2, 0])) (.mk .caret (exVersion [1, 1])) ⟨by decide +kernel, by decide +kernel⟩ ⟨by decide +kernel, by decide +kernel⟩ ⟨rfl, rfl⟩ ⟨rfl, rfl⟩ 1 0
    (by decide +kernel) (by decide +kernel)).2 (.inr (by decide +kernel)), by decide +kernel⟩

namespace Windows

/-- The operator that a string is read as is on a version that a string denotes. -/
theorem read_canonical {r : PyStr} {o : Operator} (h : Specifier.parse r = .ok (.one o)) : o.version.Canonical := by
  obtain ⟨gs, hg, e⟩ := (Specifier.parse_ok_iff' r _).1 h
  have hc := ofAny_canonical hg
  rw [← e] at hc
  cases hc with
  | one hc => exact hc

theorem self {o : Operator} (ho : o.version.Sane) (so : o.version.pre = none ∧ o.version.dev = none) {i : Nat} (hi : o.EndsAt i) :
    o.accepts o.version = .ok true := by
  obtain ⟨n, bn, hn⟩ := accepted ho.valid so hi
  exact (hn _).2 ⟨le_rfl, bn.lt ho.valid ho.nonNeg⟩

theorem set_mem {lim : Nat} {r : PyStr} {o : Operator} {x : VSet} (h : Specifier.parse r = .ok (.one o)) (hx : VSet.parse lim r = .ok x) (v : Version) :
    o.accepts v = .ok true ↔ x.Mem v := by
  obtain ⟨-, t, ht, hm⟩ := C53_set lim r x hx
  obtain rfl := Except.ok.inj (h.symm.trans ht)
  obtain ⟨b, hb, hbm⟩ := hm v
  rw [← hbm, show o.accepts v = .ok b from hb, Except.ok.injEq]

end Windows

/-- C133. The sets of two such requirement strings answer the same: `includes` by the version of the other and the ends, `intersects`
by the versions alone. -/
theorem C133_sets (lim : Nat) (r q : PyStr) (o p : Operator) (x y : VSet) (hr : Specifier.parse r = .ok (.one o))
    (hq : Specifier.parse q = .ok (.one p)) (hx : VSet.parse lim r = .ok x) (hy : VSet.parse lim q = .ok y)
    (so : o.version.pre = none ∧ o.version.dev = none) (sp : p.version.pre = none ∧ p.version.dev = none) (i j : Nat)
    (hi : o.EndsAt i) (hj : p.EndsAt j) :
    (x.includes y = true ↔ o.accepts p.version = .ok true ∧ i ≤ j) ∧
      (x.intersects y = true ↔ o.accepts p.version = .ok true ∨ p.accepts o.version = .ok true) := by
  have co := Windows.read_canonical hr
  have cp := Windows.read_canonical hq
  have ho : o.version.Sane := ⟨co.valid, co.release⟩
  have hp : p.version.Sane := ⟨cp.valid, cp.release⟩
  obtain ⟨nx, cx⟩ := C67_parsed lim r x hx
  obtain ⟨ny, cy⟩ := C67_parsed lim q y hy
  have wx := VSet.Canonical.wf cx
  have wy := VSet.Canonical.wf cy
  constructor
  · rw [← C133_implies o p ho hp so sp i j hi hj]
    simp only [Windows.set_mem hr hx, Windows.set_mem hq hy]
    exact ⟨(C26_includes x y nx ny).1, fun h => (C26_includes x y nx ny).2 wx wy fun v _ => h v⟩
  · constructor
    · intro h
      obtain ⟨v, -, h1, h2⟩ := (C27_intersects_iff_common x y nx ny wx wy).1 h
      exact (C133_meet o p ho hp so sp i j hi hj).1 ⟨v, (Windows.set_mem hr hx v).2 h1, (Windows.set_mem hq hy v).2 h2⟩
    · rintro (h | h)
      · exact (C27_intersects_iff_common x y nx ny wx wy).2 ⟨_, cp.wf, (Windows.set_mem hr hx _).1 h, (Windows.set_mem hq hy _).1 (Windows.self hp sp hj)⟩
      · exact (C27_intersects_iff_common x y nx ny wx wy).2 ⟨_, co.wf, (Windows.set_mem hr hx _).1 (Windows.self ho so hi), (Windows.set_mem hq hy _).1 h⟩

/-- `^1.2` includes `~1.2.5`; `~1.2` does not include `^1.2.5` but intersects it. -/
example (x y : VSet) (hx : VSet.parse 5 "~1.2".toList = .ok x) (hy : VSet.parse 5 "^1.2.5".toList = .ok y) : x.includes y ≠ true ∧ x.intersects y = true := by
  have h := C133_sets 5 _ _ (.mk .tilde (exVersion [1, 2])) (.mk .caret (exVersion [1, 2, 5])) x y (by rfl) (by rfl) hx hy ⟨rfl, rfl⟩ ⟨rfl, rfl⟩ 1 0
    (by decide +kernel) (by decide +kernel)
  exact ⟨fun c => absurd (h.1.1 c).2 (by decide), h.2.2 (.inl (by decide +kernel))⟩

example : ((VSet.parse 5 "^1.2".toList).bind fun x => (VSet.parse 5 "~1.2.5".toList).bind fun y => .ok (x.includes y)) = .ok true := by
  decide +kernel

end Verif
