import Verif.Props.WindowBounds
/-!
# C135: requirements on a pre-release and on the release it leads to
-/

namespace Verif

/-- The release without tags and local segment. -/
def Version.finalOf (v : Version) : Version := { epoch := v.epoch, release := v.release }

namespace FinalRelease

variable {v : Version}

theorem final_sane (hv : v.Sane) : v.finalOf.Sane :=
  ⟨⟨hv.valid.release, by rintro t ⟨⟩, by rintro t ⟨⟩, by rintro t ⟨⟩, by rintro t ⟨⟩⟩, hv.nonNeg⟩

theorem bumped_final {i : Nat} {w : Version} (h : Bumped i v w) : Bumped i v.finalOf w := ⟨h.final, h.valid, h.numbers⟩

theorem dropped_key {w : Version} (h : Dropped v w) : w.key = v.finalOf.key := by
  obtain ⟨e, r, pre, post, dev, l⟩ := w
  obtain ⟨f1, f2, f3, f4⟩ := h.final
  have he := h.epoch
  have hr := h.release
  simp only at f1 f2 f3 f4 he hr
  subst f1 f2 f3 f4 he hr
  rfl

/-- The release that a version leads to is below any bump of it. -/
theorem split {i : Nat} {n m : Version} (hv : v.Sane) (hn : Bumped i v n) (hm : Bumped i v.finalOf m) (x : Version) :
    v.key ≤ x.key ∧ x.key < n.key ↔ v.key ≤ x.key ∧ (x.key < v.finalOf.key ∨ v.finalOf.key ≤ x.key ∧ x.key < m.key) := by
  have hf := final_sane hv
  have hn' := bumped_final hn
  have e : n.key = m.key := le_antisymm ((hn'.le_bumped_iff hm hf).2 le_rfl) ((hm.le_bumped_iff hn' hf).2 le_rfl)
  have lt := hm.lt hf.valid hf.nonNeg
  rw [e]
  refine and_congr_right fun _ => ⟨fun h => ?_, ?_⟩
  · rcases lt_or_ge x.key v.finalOf.key with c | c
    · exact .inl c
    · exact .inr ⟨c, h⟩
  · rintro (h | h)
    · exact h.trans lt
    · exact h.2

end FinalRelease

/-- C135. `^` on a pre-release (or development release) with a major number other than 0, and `~=`, accept what the same requirement
on the release accepts, and besides the versions from the pre-release up to the release. -/
theorem C135_kept (o : Operator) (ho : o.version.Sane) (hu : o.version.pre ≠ none ∨ o.version.dev ≠ none)
    (h : o.type = .caret ∧ o.version.release.part 0 ≠ 0 ∨ o.type = .tildeEqual ∧ 2 ≤ o.version.release.precision) (x : Version) :
    o.accepts x = .ok true ↔
      o.version ≤ₚ x ∧ (x <ₚ o.version.finalOf ∨ (Operator.mk o.type o.version.finalOf).accepts x = .ok true) := by
  obtain ⟨t, v⟩ := o
  change v.Sane at ho
  have hs := (unstable_iff v).2 hu
  have hf := FinalRelease.final_sane ho
  have sf : v.finalOf.pre = none ∧ v.finalOf.dev = none := ⟨rfl, rfl⟩
  rcases h with ⟨rfl, h⟩ | ⟨rfl, h⟩
  · change v.release.part 0 ≠ 0 at h
    obtain ⟨n, e, -, hb, -⟩ := caret_spec ho.valid
    obtain ⟨m, bm, hm⟩ := Windows.accepted (o := ⟨.caret, v.finalOf⟩) hf.valid sf (i := 0) ⟨by omega, by omega, .inl h⟩
    rw [hm, vle_iff, vlt_iff]
    exact (chained_true e).trans (FinalRelease.split ho (hb hs h) bm x)
  · change 2 ≤ v.release.precision at h
    obtain ⟨n, e, hb⟩ := (tildeEqual_spec ho.valid).2 h
    obtain ⟨m, bm, hm⟩ := Windows.accepted (o := ⟨.tildeEqual, v.finalOf⟩) hf.valid sf (i := v.release.precision - 2)
      (by change _ + 2 = v.release.precision; omega)
    rw [hm, vle_iff, vlt_iff]
    exact (chained_true e).trans (FinalRelease.split ho hb bm x)

/-- `^1.2rc1` accepts `1.2rc2`, `1.2` and `1.9`. -/
example : (∀ x ∈ [exVersion [1, 2] (some ⟨"rc".toList, 2⟩), exVersion [1, 2], exVersion [1, 9]], (Operator.mk .caret (exVersion [1, 2] (some rcTag))).accepts x = .ok true) ∧
    (Operator.mk .tildeEqual (exVersion [1, 2] (some rcTag))).accepts (exVersion [1, 9]) = .ok true :=
  ⟨by decide +kernel, (C135_kept (.mk .tildeEqual (exVersion [1, 2] (some rcTag))) ⟨by decide +kernel, by decide +kernel⟩ (by decide) (.inr ⟨rfl, by decide⟩) _).2
    ⟨by decide +kernel, .inr (by decide +kernel)⟩⟩

/-- C135. The other requirements on a pre-release end at the release: `~`, `== v.*`, and `^` with the major number 0. -/
theorem C135_ends (o : Operator) (ho : o.version.Sane) (hu : o.version.pre ≠ none ∨ o.version.dev ≠ none)
    (h : o.type = .caret ∧ o.version.release.part 0 = 0 ∨ o.type ∈ [.tilde, .wildcardDoubleEqual, .wildcardEqual]) (x : Version) :
    o.accepts x = .ok true ↔ o.version ≤ₚ x ∧ x <ₚ o.version.finalOf := by
  obtain ⟨t, v⟩ := o
  change v.Sane at ho
  have hs := (unstable_iff v).2 hu
  rw [vle_iff, vlt_iff]
  have wild : x.matchesWildcardEqual v = .ok true ↔ v.key ≤ x.key ∧ x.key < v.finalOf.key := by
    obtain ⟨n, e, hb⟩ := (wildcard_spec ho.valid).2.2.2 hs
    rw [wildcardEqual_ok e, Except.ok.injEq, Bool.and_eq_true, vle_iff, vlt_iff, FinalRelease.dropped_key hb]
  simp only [List.mem_cons, List.not_mem_nil, or_false] at h
  rcases h with ⟨rfl, h⟩ | rfl | rfl | rfl
  · obtain ⟨n, e, -, -, hb⟩ := caret_spec ho.valid
    rw [← FinalRelease.dropped_key (hb hs h)]
    exact chained_true e
  · obtain ⟨n, e, -, hb⟩ := tilde_spec ho.valid
    rw [← FinalRelease.dropped_key (hb hs)]
    exact chained_true e
  · exact wild
  · exact wild

/-- `~1.2rc1` accepts `1.2rc2` but not `1.2`. -/
example : (Operator.mk .tilde (exVersion [1, 2] (some rcTag))).accepts (exVersion [1, 2] (some ⟨"rc".toList, 2⟩)) = .ok true ∧
    (Operator.mk .tilde (exVersion [1, 2] (some rcTag))).accepts (exVersion [1, 2]) ≠ .ok true :=
  have h := C135_ends (.mk .tilde (exVersion [1, 2] (some rcTag))) ⟨by decide +kernel, by decide +kernel⟩ (by decide) (.inr (by decide))
  ⟨(h _).2 ⟨by decide +kernel, by decide +kernel⟩, fun c => absurd ((h _).1 c) (by decide +kernel)⟩

/-- C135. So these, on a pre-release and on the release, have no version in common. -/
theorem C135_apart (o : Operator) (ho : o.version.Sane) (hu : o.version.pre ≠ none ∨ o.version.dev ≠ none)
    (h : o.type = .caret ∧ o.version.release.part 0 = 0 ∨ o.type ∈ [.tilde, .wildcardDoubleEqual, .wildcardEqual])
    (hp : o.type ∈ [.wildcardDoubleEqual, .wildcardEqual] → 2 ≤ o.version.release.precision) (x : Version) (hx : o.accepts x = .ok true) :
    (Operator.mk o.type o.version.finalOf).accepts x ≠ .ok true := by
  intro c
  have h1 := ((C135_ends o ho hu h x).1 hx).2
  rw [vlt_iff] at h1
  obtain ⟨t, v⟩ := o
  change v.Sane at ho
  have hf := FinalRelease.final_sane ho
  have hpos : 0 < v.release.precision := (precision_pos_iff _).2 ho.valid.release
  have sf : v.finalOf.pre = none ∧ v.finalOf.dev = none := ⟨rfl, rfl⟩
  have key {i : Nat} (hi : (Operator.mk t v.finalOf).EndsAt i) : False := by
    obtain ⟨m, -, hm⟩ := Windows.accepted (o := ⟨t, v.finalOf⟩) hf.valid sf hi
    exact absurd ((hm x).1 c).1 (not_le_of_gt h1)
  simp only [List.mem_cons, List.not_mem_nil, or_false] at h
  rcases h with ⟨rfl, -⟩ | rfl | rfl | rfl
  · obtain ⟨n, -, hb, -⟩ := caret_spec hf.valid
    obtain ⟨i, hi, -⟩ := hb ((stable_iff _).2 sf)
    exact key (i := i) hi
  · exact key (i := min 2 v.release.precision - 1) (by change _ + 1 = min 2 v.release.precision; omega)
  · have := hp (by simp)
    exact key (i := v.release.precision - 2) ⟨fun _ => by change _ + 2 = v.release.precision; change 2 ≤ v.release.precision at this; omega, fun c => absurd rfl c⟩
  · have := hp (by simp)
    exact key (i := v.release.precision - 2) ⟨fun _ => by change _ + 2 = v.release.precision; change 2 ≤ v.release.precision at this; omega, fun c => absurd rfl c⟩

/-- `^0.2rc1` and `^0.2` exclude each other. -/
example (x : Version) (hx : (Operator.mk .caret (exVersion [0, 2] (some rcTag))).accepts x = .ok true) :
    (Operator.mk .caret (exVersion [0, 2])).accepts x ≠ .ok true :=
  C135_apart (.mk .caret (exVersion [0, 2] (some rcTag))) ⟨by decide +kernel, by decide +kernel⟩ (by decide) (.inl ⟨rfl, by decide⟩) (by decide) x hx

example : (Operator.mk .caret (exVersion [0, 2] (some rcTag))).accepts (exVersion [0, 2] (some ⟨"rc".toList, 2⟩)) = .ok true := by decide +kernel

/-- C135. The sets of the strings: for `^` with a major number other than 0 and for `~=`, that of the pre-release includes that of the
release and is not included in it; for the others they do not intersect. -/
theorem C135_sets (lim : Nat) (r q : PyStr) (o : Operator) (x y : VSet) (hr : Specifier.parse r = .ok (.one o))
    (hq : Specifier.parse q = .ok (.one ⟨o.type, o.version.finalOf⟩)) (hx : VSet.parse lim r = .ok x) (hy : VSet.parse lim q = .ok y)
    (hu : o.version.pre ≠ none ∨ o.version.dev ≠ none) :
    ((o.type = .caret ∧ o.version.release.part 0 ≠ 0 ∨ o.type = .tildeEqual ∧ 2 ≤ o.version.release.precision) → ¬ o.version.IsDevOfPost →
      x.includes y = true ∧ y.includes x = false) ∧
    ((o.type = .caret ∧ o.version.release.part 0 = 0 ∨ o.type ∈ [.tilde, .wildcardDoubleEqual, .wildcardEqual]) →
      (o.type ∈ [.wildcardDoubleEqual, .wildcardEqual] → 2 ≤ o.version.release.precision) → x.intersects y = false) := by
  have co := Windows.read_canonical hr
  have ho : o.version.Sane := ⟨co.valid, co.release⟩
  have hf := FinalRelease.final_sane ho
  constructor
  · intro h hd
    have lt : o.version.key < o.version.finalOf.key := by
      have h1 := (C12_to_stable o.version).2.2.2.2.2.1 hu
      have h2 := (C12_to_stable o.version).2.2.2.2.2.2.1 hd
      rw [h1, vle_iff] at h2
      refine lt_of_le_of_ne h2 fun e => ?_
      obtain ⟨-, -, e1, -, e2, -⟩ := (key_eq_iff _ _).1 e
      exact hu.elim (fun c => c e1) fun c => c e2
    rw [(Windows.sets_answer hr hq hx hy).1, ← Bool.not_eq_true, (Windows.sets_answer hq hr hy hx).1]
    have low (z : Version) (hz : (Operator.mk o.type o.version.finalOf).accepts z = .ok true) : o.version.finalOf.key ≤ z.key := by
      rcases h with ⟨e, h⟩ | ⟨e, h⟩
      · obtain ⟨m, -, hm⟩ := Windows.accepted (o := ⟨o.type, o.version.finalOf⟩) hf.valid ⟨rfl, rfl⟩ (i := 0) (by rw [e]; exact ⟨by omega, by omega, .inl h⟩)
        exact ((hm z).1 hz).1
      · obtain ⟨m, -, hm⟩ := Windows.accepted (o := ⟨o.type, o.version.finalOf⟩) hf.valid ⟨rfl, rfl⟩ (i := o.version.release.precision - 2)
          (by rw [e]; change _ + 2 = o.version.release.precision; omega)
        exact ((hm z).1 hz).1
    refine ⟨fun z hz => (C135_kept o ho hu h z).2 ⟨(vle_iff _ _).2 (lt.le.trans (low z hz)), .inr hz⟩, fun c => ?_⟩
    exact absurd (low _ (c _ ((C135_kept o ho hu h _).2 ⟨(vle_iff _ _).2 le_rfl, .inl ((vlt_iff _ _).2 lt)⟩))) (not_le_of_gt lt)
  · intro h hp
    rw [← Bool.not_eq_true, (Windows.sets_answer hr hq hx hy).2]
    rintro ⟨z, -, h1, h2⟩
    exact C135_apart o ho hu h hp z h2 h1

/-- The set of `^1.2rc1` includes that of `^1.2`; that of `~1.2rc1` does not intersect that of `~1.2`. -/
example (x y : VSet) (hx : VSet.parse 5 "~1.2rc1".toList = .ok x) (hy : VSet.parse 5 "~1.2".toList = .ok y) : x.intersects y = false :=
  (C135_sets 5 _ _ ⟨.tilde, exVersion [1, 2] (some rcTag)⟩ x y (by rfl) (by rfl) hx hy (by decide)).2 (.inr (by decide)) (by decide)

example : ((VSet.parse 5 "^1.2rc1".toList).bind fun x => (VSet.parse 5 "^1.2".toList).bind fun y => .ok (x.includes y, y.includes x)) = .ok (true, false) := by
  decide +kernel

end Verif
