import Verif.Props.Windows
/-!
# C134: `^`, `~`, `~=` and `== v.*` beside `>=`, `>`, `<`, `<=` and `!=`
-/

namespace Verif

namespace Windows

theorem window {p : Operator} {j : Nat} (hp : p.version.Sane) (sp : p.version.pre = none ∧ p.version.dev = none) (hj : p.EndsAt j) :
    ∃ n, p.version.nextAt j = .ok n ∧ n.Wf ∧ p.version.key < n.key ∧
      ∀ x, p.accepts x = .ok true ↔ p.version.key ≤ x.key ∧ x.key < n.key := by
  obtain ⟨m, bm, hm⟩ := accepted hp.valid sp hj
  obtain ⟨n, en, bn⟩ := nextAt_stable hp.valid ((stable_iff _).2 sp) j
  have e : n.key = m.key := le_antisymm ((bn.le_bumped_iff bm hp).2 le_rfl) ((bm.le_bumped_iff bn hp).2 le_rfl)
  refine ⟨n, en, ⟨bn.valid, fun l hl => ?_⟩, bn.lt hp.valid hp.nonNeg, fun x => by rw [hm, e]⟩
  rw [bn.final.2.2.2] at hl
  cases hl

theorem ok_true {b : Bool} : (Except.ok b : Except PyErr Bool) = .ok true ↔ b = true := by rw [Except.ok.injEq]

end Windows

/-- C134. Which bounds follow from one of these requirements on a stable version: lower ones up to the version, upper ones from the
bump on, whether or not they are strict; and `!= w` if `w` is not accepted. -/
theorem C134_bounds (p : Operator) (hp : p.version.Sane) (sp : p.version.pre = none ∧ p.version.dev = none) (j : Nat) (hj : p.EndsAt j)
    (w : Version) (hw : w.Wf) :
    ∃ n, p.version.nextAt j = .ok n ∧
      ((∀ x, p.accepts x = .ok true → (Operator.mk .greaterOrEqual w).accepts x = .ok true) ↔ w ≤ₚ p.version) ∧
      ((∀ x, p.accepts x = .ok true → (Operator.mk .greater w).accepts x = .ok true) ↔ w <ₚ p.version) ∧
      ((∀ x, p.accepts x = .ok true → (Operator.mk .less w).accepts x = .ok true) ↔ n ≤ₚ w) ∧
      ((∀ x, p.accepts x = .ok true → (Operator.mk .lessOrEqual w).accepts x = .ok true) ↔ n ≤ₚ w) ∧
      ((∀ x, p.accepts x = .ok true → (Operator.mk .notEqual w).accepts x = .ok true) ↔ p.accepts w ≠ .ok true) := by
  obtain ⟨n, en, nw, lt, hn⟩ := Windows.window hp sp hj
  have ge x : (Operator.mk .greaterOrEqual w).accepts x = .ok true ↔ w.key ≤ x.key := Windows.ok_true.trans (vge_iff x w)
  have gt x : (Operator.mk .greater w).accepts x = .ok true ↔ w.key < x.key := Windows.ok_true.trans (vgt_iff x w)
  have ls x : (Operator.mk .less w).accepts x = .ok true ↔ x.key < w.key := Windows.ok_true.trans (vlt_iff x w)
  have le x : (Operator.mk .lessOrEqual w).accepts x = .ok true ↔ x.key ≤ w.key := Windows.ok_true.trans (vle_iff x w)
  have ne x : (Operator.mk .notEqual w).accepts x = .ok true ↔ x.key ≠ w.key := by
    refine Windows.ok_true.trans ?_
    rw [Bool.not_eq_true', ← Bool.not_eq_true, veq_iff]
  simp only [hn, ge, gt, ls, le, ne, vle_iff, vlt_iff]
  have top (h : ∀ x : Version, p.version.key ≤ x.key ∧ x.key < n.key → x.key ≤ w.key) : n.key ≤ w.key := by
    by_contra c
    obtain ⟨x, -, h1, h2⟩ := exists_version_between hw nw (lt_of_not_ge c)
    exact absurd (h x ⟨(h _ ⟨le_rfl, lt⟩).trans h1.le, h2⟩) (not_le_of_gt h1)
  refine ⟨n, en, ⟨fun h => h _ ⟨le_rfl, lt⟩, fun h x hx => h.trans hx.1⟩, ⟨fun h => h _ ⟨le_rfl, lt⟩, fun h x hx => lt_of_lt_of_le h hx.1⟩,
    ⟨fun h => top fun x hx => (h x hx).le, fun h x hx => lt_of_lt_of_le hx.2 h⟩, ⟨top, fun h x hx => hx.2.le.trans h⟩,
    ⟨fun h c => h w ((hn w).1 c) rfl, fun h x hx c => h ((hn w).2 (c ▸ hx))⟩⟩

/-- `^1.2` implies `< 2.0` and `<= 2`, but neither `<= 2.0rc1` nor `!= 2.0rc1`, as it accepts pre-releases of its end. -/
example : (∀ x, (Operator.mk .caret (exVersion [1, 2])).accepts x = .ok true → (Operator.mk .lessOrEqual (exVersion [2])).accepts x = .ok true) ∧
    ¬ (∀ x, (Operator.mk .caret (exVersion [1, 2])).accepts x = .ok true →
      (Operator.mk .lessOrEqual (exVersion [2, 0] (some rcTag))).accepts x = .ok true) ∧
    ¬ (∀ x, (Operator.mk .caret (exVersion [1, 2])).accepts x = .ok true →
      (Operator.mk .notEqual (exVersion [2, 0] (some rcTag))).accepts x = .ok true) := by
  have h w hw := C134_bounds (.mk .caret (exVersion [1, 2])) ⟨by decide +kernel, by decide +kernel⟩ ⟨rfl, rfl⟩ 0 (by decide +kernel) w hw
  obtain ⟨n, en, -, -, -, h1, -⟩ := h (exVersion [2]) (by decide +kernel)
  obtain ⟨m, em, -, -, -, h2, h3⟩ := h (exVersion [2, 0] (some rcTag)) (by decide +kernel)
  have e : (exVersion [1, 2]).nextAt (0 : Nat) = .ok (exVersion [2, 0]) := by decide +kernel
  obtain rfl := Except.ok.inj (en.symm.trans e)
  obtain rfl := Except.ok.inj (em.symm.trans e)
  exact ⟨h1.2 (by decide +kernel), fun c => absurd (h2.1 c) (by decide +kernel), fun c => h3.1 c (by decide +kernel)⟩

/-- C134. And the bounds `>= v, < u` imply the requirement exactly if they lie in its window, or nothing is between them. -/
theorem C134_within (p : Operator) (hp : p.version.Sane) (sp : p.version.pre = none ∧ p.version.dev = none) (j : Nat) (hj : p.EndsAt j) (v u : Version) :
    ∃ n, p.version.nextAt j = .ok n ∧
      ((∀ x, (Operator.mk .greaterOrEqual v).accepts x = .ok true → (Operator.mk .less u).accepts x = .ok true → p.accepts x = .ok true) ↔
        u ≤ₚ v ∨ p.version ≤ₚ v ∧ u ≤ₚ n) := by
  obtain ⟨n, en, nw, lt, hn⟩ := Windows.window hp sp hj
  have ge x : (Operator.mk .greaterOrEqual v).accepts x = .ok true ↔ v.key ≤ x.key := Windows.ok_true.trans (vge_iff x v)
  have ls x : (Operator.mk .less u).accepts x = .ok true ↔ x.key < u.key := Windows.ok_true.trans (vlt_iff x u)
  simp only [hn, ge, ls, vle_iff]
  refine ⟨n, en, fun h => ?_, ?_⟩
  · refine or_iff_not_imp_left.2 fun c => ?_
    have hv := h v le_rfl (lt_of_not_ge c)
    refine ⟨hv.1, ?_⟩
    by_contra d
    exact absurd (h n hv.2.le (lt_of_not_ge d)).2 (lt_irrefl _)
  · rintro (h | ⟨h1, h2⟩) x h3 h4
    · exact absurd (lt_of_le_of_lt h3 h4) (not_lt_of_ge h)
    · exact ⟨h1.trans h3, lt_of_lt_of_le h4 h2⟩

/-- `>= 1.4, < 1.8` implies `^1.2`; `>= 1.4, < 2.1` does not. -/
example : (∀ x, (Operator.mk .greaterOrEqual (exVersion [1, 4])).accepts x = .ok true → (Operator.mk .less (exVersion [1, 8])).accepts x = .ok true →
      (Operator.mk .caret (exVersion [1, 2])).accepts x = .ok true) ∧
    ¬ (∀ x, (Operator.mk .greaterOrEqual (exVersion [1, 4])).accepts x = .ok true → (Operator.mk .less (exVersion [2, 1])).accepts x = .ok true →
      (Operator.mk .caret (exVersion [1, 2])).accepts x = .ok true) := by
  have h u := C134_within (.mk .caret (exVersion [1, 2])) ⟨by decide +kernel, by decide +kernel⟩ ⟨rfl, rfl⟩ 0 (by decide +kernel) (exVersion [1, 4]) u
  obtain ⟨n, en, h1⟩ := h (exVersion [1, 8])
  obtain ⟨m, em, h2⟩ := h (exVersion [2, 1])
  have e : (exVersion [1, 2]).nextAt (0 : Nat) = .ok (exVersion [2, 0]) := by decide +kernel
  obtain rfl := Except.ok.inj (en.symm.trans e)
  obtain rfl := Except.ok.inj (em.symm.trans e)
  exact ⟨h1.2 (.inr (by decide +kernel)), fun c => absurd (h2.1 c) (by decide +kernel)⟩

/-- C134. When the requirement and a bound can be satisfied together: with a lower bound if that is below the bump, strict or not; with
an upper bound if the version itself satisfies it; with `!= w` always. -/
theorem C134_meets (p : Operator) (hp : p.version.Sane) (wp : p.version.Wf) (sp : p.version.pre = none ∧ p.version.dev = none) (j : Nat)
    (hj : p.EndsAt j) (w : Version) (hw : w.Wf) :
    ∃ n, p.version.nextAt j = .ok n ∧
      ((∃ x, x.Wf ∧ p.accepts x = .ok true ∧ (Operator.mk .greaterOrEqual w).accepts x = .ok true) ↔ w <ₚ n) ∧
      ((∃ x, x.Wf ∧ p.accepts x = .ok true ∧ (Operator.mk .greater w).accepts x = .ok true) ↔ w <ₚ n) ∧
      ((∃ x, x.Wf ∧ p.accepts x = .ok true ∧ (Operator.mk .less w).accepts x = .ok true) ↔ p.version <ₚ w) ∧
      ((∃ x, x.Wf ∧ p.accepts x = .ok true ∧ (Operator.mk .lessOrEqual w).accepts x = .ok true) ↔ p.version ≤ₚ w) ∧
      ∃ x, x.Wf ∧ p.accepts x = .ok true ∧ (Operator.mk .notEqual w).accepts x = .ok true := by
  obtain ⟨n, en, nw, lt, hn⟩ := Windows.window hp sp hj
  have ge x : (Operator.mk .greaterOrEqual w).accepts x = .ok true ↔ w.key ≤ x.key := Windows.ok_true.trans (vge_iff x w)
  have gt x : (Operator.mk .greater w).accepts x = .ok true ↔ w.key < x.key := Windows.ok_true.trans (vgt_iff x w)
  have ls x : (Operator.mk .less w).accepts x = .ok true ↔ x.key < w.key := Windows.ok_true.trans (vlt_iff x w)
  have le x : (Operator.mk .lessOrEqual w).accepts x = .ok true ↔ x.key ≤ w.key := Windows.ok_true.trans (vle_iff x w)
  have ne x : (Operator.mk .notEqual w).accepts x = .ok true ↔ x.key ≠ w.key := by
    refine Windows.ok_true.trans ?_
    rw [Bool.not_eq_true', ← Bool.not_eq_true, veq_iff]
  simp only [hn, ge, gt, ls, le, ne, vle_iff, vlt_iff]
  have above (h : w.key < n.key) : ∃ x : Version, x.Wf ∧ (p.version.key ≤ x.key ∧ x.key < n.key) ∧ w.key < x.key := by
    rcases lt_or_ge w.key p.version.key with c | c
    · exact ⟨_, wp, ⟨le_rfl, lt⟩, c⟩
    · obtain ⟨x, x1, x2, x3⟩ := exists_version_between hw nw h
      exact ⟨x, x1, ⟨c.trans x2.le, x3⟩, x2⟩
  refine ⟨n, en, ⟨fun ⟨x, _, h1, h2⟩ => lt_of_le_of_lt h2 h1.2, fun h => ?_⟩, ⟨fun ⟨x, _, h1, h2⟩ => h2.trans h1.2, above⟩,
    ⟨fun ⟨x, _, h1, h2⟩ => lt_of_le_of_lt h1.1 h2, fun h => ⟨_, wp, ⟨le_rfl, lt⟩, h⟩⟩,
    ⟨fun ⟨x, _, h1, h2⟩ => h1.1.trans h2, fun h => ⟨_, wp, ⟨le_rfl, lt⟩, h⟩⟩, ?_⟩
  · obtain ⟨x, x1, x2, x3⟩ := above h
    exact ⟨x, x1, x2, x3.le⟩
  · by_cases c : p.version.key = w.key
    · obtain ⟨x, x1, x2, x3⟩ := above (c ▸ lt)
      exact ⟨x, x1, x2, x3.ne'⟩
    · exact ⟨_, wp, ⟨le_rfl, lt⟩, c⟩

/-- `^1.2` and `> 2.0rc1` have versions in common; `^1.2` and `>= 2` do not, nor do `^1.2` and `< 1.2`. -/
example : (∃ x, (Operator.mk .caret (exVersion [1, 2])).accepts x = .ok true ∧ (Operator.mk .greater (exVersion [2, 0] (some rcTag))).accepts x = .ok true) ∧
    (¬ ∃ x, x.Wf ∧ (Operator.mk .caret (exVersion [1, 2])).accepts x = .ok true ∧ (Operator.mk .greaterOrEqual (exVersion [2])).accepts x = .ok true) ∧
    ¬ ∃ x, x.Wf ∧ (Operator.mk .caret (exVersion [1, 2])).accepts x = .ok true ∧ (Operator.mk .less (exVersion [1, 2])).accepts x = .ok true := by
  have h w hw := C134_meets (.mk .caret (exVersion [1, 2])) ⟨by decide +kernel, by decide +kernel⟩ (by decide +kernel) ⟨rfl, rfl⟩ 0 (by decide +kernel) w hw
  have e : (exVersion [1, 2]).nextAt (0 : Nat) = .ok (exVersion [2, 0]) := by decide +kernel
  obtain ⟨n, en, -, h1, -⟩ := h (exVersion [2, 0] (some rcTag)) (by decide +kernel)
  obtain ⟨m, em, h2, -⟩ := h (exVersion [2]) (by decide +kernel)
  obtain ⟨l, -, -, -, h3, -⟩ := h (exVersion [1, 2]) (by decide +kernel)
  obtain rfl := Except.ok.inj (en.symm.trans e)
  obtain rfl := Except.ok.inj (em.symm.trans e)
  obtain ⟨x, -, h4⟩ := h1.2 (by decide +kernel)
  exact ⟨⟨x, h4⟩, fun c => absurd (h2.1 c) (by decide +kernel), fun c => absurd (h3.1 c) (by decide +kernel)⟩

namespace Windows

/-- What `includes` and `intersects` answer on the sets of two strings that are read as operators. -/
theorem sets_answer {lim : Nat} {r q : PyStr} {o p : Operator} {x y : VSet} (hr : Specifier.parse r = .ok (.one o))
    (hq : Specifier.parse q = .ok (.one p)) (hx : VSet.parse lim r = .ok x) (hy : VSet.parse lim q = .ok y) :
    (x.includes y = true ↔ ∀ z, p.accepts z = .ok true → o.accepts z = .ok true) ∧
      (x.intersects y = true ↔ ∃ z, z.Wf ∧ p.accepts z = .ok true ∧ o.accepts z = .ok true) := by
  obtain ⟨nx, cx⟩ := C67_parsed lim r x hx
  obtain ⟨ny, cy⟩ := C67_parsed lim q y hy
  have wx := VSet.Canonical.wf cx
  have wy := VSet.Canonical.wf cy
  simp only [set_mem hr hx, set_mem hq hy]
  exact ⟨⟨(C26_includes x y nx ny).1, fun h => (C26_includes x y nx ny).2 wx wy fun v _ => h v⟩,
    (C27_intersects_iff_common x y nx ny wx wy).trans (exists_congr fun z => and_congr_right fun _ => and_comm)⟩

end Windows

/-- C134. The sets of the strings answer the same. -/
theorem C134_sets (lim : Nat) (r q : PyStr) (t : OpType) (w : Version) (p : Operator) (x y : VSet)
    (hr : Specifier.parse r = .ok (.one ⟨t, w⟩)) (hq : Specifier.parse q = .ok (.one p)) (hx : VSet.parse lim r = .ok x)
    (hy : VSet.parse lim q = .ok y) (sp : p.version.pre = none ∧ p.version.dev = none) (j : Nat) (hj : p.EndsAt j) :
    ∃ n, p.version.nextAt j = .ok n ∧
      (t = .greaterOrEqual → (x.includes y = true ↔ w ≤ₚ p.version) ∧ (x.intersects y = true ↔ w <ₚ n)) ∧
      (t = .greater → (x.includes y = true ↔ w <ₚ p.version) ∧ (x.intersects y = true ↔ w <ₚ n)) ∧
      (t = .less → (x.includes y = true ↔ n ≤ₚ w) ∧ (x.intersects y = true ↔ p.version <ₚ w)) ∧
      (t = .lessOrEqual → (x.includes y = true ↔ n ≤ₚ w) ∧ (x.intersects y = true ↔ p.version ≤ₚ w)) ∧
      (t = .notEqual → (x.includes y = true ↔ p.accepts w ≠ .ok true) ∧ x.intersects y = true) := by
  have cp := Windows.read_canonical hq
  have hp : p.version.Sane := ⟨cp.valid, cp.release⟩
  have hw : w.Wf := (Windows.read_canonical hr).wf
  obtain ⟨n, en, b1, b2, b3, b4, b5⟩ := C134_bounds p hp sp j hj w hw
  obtain ⟨m, em, m1, m2, m3, m4, m5⟩ := C134_meets p hp cp.wf sp j hj w hw
  obtain rfl := Except.ok.inj (en.symm.trans em)
  obtain ⟨s1, s2⟩ := Windows.sets_answer hr hq hx hy
  refine ⟨n, en, ?_, ?_, ?_, ?_, ?_⟩
  · rintro rfl; exact ⟨s1.trans b1, s2.trans m1⟩
  · rintro rfl; exact ⟨s1.trans b2, s2.trans m2⟩
  · rintro rfl; exact ⟨s1.trans b3, s2.trans m3⟩
  · rintro rfl; exact ⟨s1.trans b4, s2.trans m4⟩
  · rintro rfl; exact ⟨s1.trans b5, s2.2 m5⟩

/-- The set of `<= 2` includes that of `^1.2`; that of `<= 1.2` intersects it, that of `< 1.2` does not. -/
example (x y : VSet) (hx : VSet.parse 5 "<=2".toList = .ok x) (hy : VSet.parse 5 "^1.2".toList = .ok y) : x.includes y = true := by
  obtain ⟨n, en, -, -, -, h, -⟩ := C134_sets 5 _ _ .lessOrEqual (exVersion [2]) (.mk .caret (exVersion [1, 2])) x y (by rfl) (by rfl) hx hy ⟨rfl, rfl⟩ 0 (by decide +kernel)
  obtain rfl := Except.ok.inj (en.symm.trans (show _ = Except.ok (exVersion [2, 0]) by decide +kernel))
  exact (h rfl).1.2 (by decide +kernel)

example : ((VSet.parse 5 "<=1.2".toList).bind fun x => (VSet.parse 5 "<1.2".toList).bind fun y => (VSet.parse 5 "^1.2".toList).bind fun z =>
    .ok (x.intersects z, y.intersects z)) = .ok (true, false) := by decide +kernel

end Verif
