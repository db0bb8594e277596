import Verif.Props.WindowBounds
import Verif.Props.Minimal
/-!
# C136: two of `^`, `~`, `~=` and `== v.*` as alternatives
-/

namespace Verif

/-- C136. Two of `^`, `~`, `~=` and `== v.*` on stable versions, joined by `|`, leave no version out from the first one's version to
the later of their ends exactly if the second starts no later than where the first ends. -/
theorem C136_gapless (o p : Operator) (ho : o.version.Sane) (hp : p.version.Sane) (so : o.version.pre = none ∧ o.version.dev = none)
    (sp : p.version.pre = none ∧ p.version.dev = none) (i j : Nat) (hi : o.EndsAt i) (hj : p.EndsAt j) :
    ∃ n m, o.version.nextAt i = .ok n ∧ p.version.nextAt j = .ok m ∧
      ((∀ x, o.version ≤ₚ x → x <ₚ n ∨ x <ₚ m → o.accepts x = .ok true ∨ p.accepts x = .ok true) ↔ p.version ≤ₚ n) := by
  obtain ⟨n, en, -, ln, hn⟩ := Windows.window ho so hi
  obtain ⟨m, em, -, lm, hm⟩ := Windows.window hp sp hj
  refine ⟨n, m, en, em, ?_⟩
  simp only [hn, hm, vle_iff, vlt_iff]
  constructor
  · intro c
    by_contra d
    rw [not_le] at d
    rcases c n ln.le (.inr (d.trans lm)) with e | e
    · exact absurd e.2 (lt_irrefl _)
    · exact absurd e.1 (not_le_of_gt d)
  · intro c x h1 h2
    rcases lt_or_ge x.key n.key with d | d
    · exact .inl ⟨h1, d⟩
    · exact .inr ⟨c.trans d, h2.resolve_left (not_lt_of_ge d)⟩

/-- `^1.2` and `^2` leave no version out below 3; `^1.2` and `^2.1` leave out 2 itself. -/
example : ∃ n m, (exVersion [1, 2]).nextAt (0 : Nat) = .ok n ∧ (exVersion [2, 1]).nextAt (0 : Nat) = .ok m ∧
    ¬ ∀ x, exVersion [1, 2] ≤ₚ x → x <ₚ n ∨ x <ₚ m →
      (Operator.mk .caret (exVersion [1, 2])).accepts x = .ok true ∨ (Operator.mk .caret (exVersion [2, 1])).accepts x = .ok true := by
  obtain ⟨n, m, hn, hm, h⟩ := C136_gapless (.mk .caret (exVersion [1, 2])) (.mk .caret (exVersion [2, 1])) ⟨by decide +kernel, by decide +kernel⟩
    ⟨by decide +kernel, by decide +kernel⟩ ⟨rfl, rfl⟩ ⟨rfl, rfl⟩ 0 0 (by decide +kernel) (by decide +kernel)
  refine ⟨n, m, hn, hm, fun c => absurd (h.1 c) ?_⟩
  obtain rfl := Except.ok.inj (hn.symm.trans (show _ = Except.ok (exVersion [2, 0]) by decide +kernel))
  decide +kernel

namespace Windows

/-- A set in normal form that stands for the versions from `v` up to `n`. -/
theorem shape {z : VSet} {v n : Version} (hz : z.Normal) (wz : z.Wf) (wv : v.Wf) (wn : n.Wf) (lt : v.key < n.key)
    (h : ∀ w : Version, z.Mem w ↔ v.key ≤ w.key ∧ w.key < n.key) :
    z.eq (.item (.range ⟨some v, some n, true, false⟩)) = true ∧ ∃ r, z = .item (.range r) ∧ r.includeMin = true := by
  have e : z.eq (.item (.range ⟨some v, some n, true, false⟩)) = true := by
    have nt : (VSet.item (.range ⟨some v, some n, true, false⟩)).Normal :=
      ⟨by rintro ⟨⟩, by rintro ⟨⟩, by rintro a b ⟨⟩ ⟨⟩; exact (vlt_iff _ _).2 lt⟩
    have wt : (VSet.item (.range ⟨some v, some n, true, false⟩)).Wf := ⟨by rintro a ⟨⟩; exact wv, by rintro a ⟨⟩; exact wn⟩
    refine (C28_eq_iff_same_versions _ _ hz nt wz wt).2 fun w _ => ?_
    · rw [h]
      simp [VSet.Mem, Item.Mem, AboveMin, BelowMax, vlt_iff, veq_iff, le_iff_lt_or_eq]
  refine ⟨e, ?_⟩
  match z, e with
  | .item (.range r), e =>
    simp [VSet.eq, Item.eq, Item.includeMin, Item.includeMax] at e
    exact ⟨r, rfl, e.1.2⟩
  | .item (.point r), e => simp [VSet.eq, Item.eq, Item.includeMin, Item.includeMax, Item.fields] at e
  | .empty, e => simp [VSet.eq] at e
  | .union _, e => simp [VSet.eq] at e

theorem ends_wf {z : VSet} (wz : z.Wf) (i : Item) (hi : z.Has i) : (∀ v, i.min = some v → v.Wf) ∧ ∀ v, i.max = some v → v.Wf := by
  cases z with
  | empty => exact hi.elim
  | item t => obtain rfl : i = t := hi; exact wz
  | union l => exact wz i hi

end Windows

/-- C136. `union` of the sets of the strings always returns, and returns a single range exactly if the second requirement starts no later
than where the first ends; then it is the range from the lower version up to the later end. -/
theorem C136_sets (lim : Nat) (r q : PyStr) (o p : Operator) (x y : VSet) (hr : Specifier.parse r = .ok (.one o))
    (hq : Specifier.parse q = .ok (.one p)) (hx : VSet.parse lim r = .ok x) (hy : VSet.parse lim q = .ok y)
    (so : o.version.pre = none ∧ o.version.dev = none) (sp : p.version.pre = none ∧ p.version.dev = none) (i j : Nat)
    (hi : o.EndsAt i) (hj : p.EndsAt j) (h : o.version ≤ₚ p.version) :
    ∃ n m z, o.version.nextAt i = .ok n ∧ p.version.nextAt j = .ok m ∧ (∀ k, x.unionWith (k + 2) y = .ok z) ∧
      (∀ w, z.contains w = true ↔ o.version ≤ₚ w ∧ w <ₚ n ∨ p.version ≤ₚ w ∧ w <ₚ m) ∧
      ((∃ t, z = .item t) ↔ p.version ≤ₚ n) ∧
      (p.version ≤ₚ n → m ≤ₚ n → z.eq (.item (.range ⟨some o.version, some n, true, false⟩)) = true) ∧
      (p.version ≤ₚ n → n ≤ₚ m → z.eq (.item (.range ⟨some o.version, some m, true, false⟩)) = true) := by
  have co := Windows.read_canonical hr
  have cp := Windows.read_canonical hq
  have ho : o.version.Sane := ⟨co.valid, co.release⟩
  have hp : p.version.Sane := ⟨cp.valid, cp.release⟩
  obtain ⟨nx, cx⟩ := C67_parsed lim r x hx
  obtain ⟨ny, cy⟩ := C67_parsed lim q y hy
  have wx := VSet.Canonical.wf cx
  have wy := VSet.Canonical.wf cy
  obtain ⟨n, en, nw, ln, hn⟩ := Windows.window ho so hi
  obtain ⟨m, em, mw, lm, hm⟩ := Windows.window hp sp hj
  obtain ⟨-, rx, ex, -⟩ := Windows.shape nx wx co.wf nw ln fun w => by rw [← Windows.set_mem hr hx, hn]
  obtain ⟨-, ry, ey, -⟩ := Windows.shape ny wy cp.wf mw lm fun w => by rw [← Windows.set_mem hq hy, hm]
  obtain ⟨z, hz⟩ := C22_union_returns x y nx ny (.inl (by
    rintro ⟨c, -, hc, -⟩
    rw [ex, ey] at hc
    rcases hc with hc | hc <;> cases hc))
  have nz : z.Normal := C19_normal_closed x y z nx ny 2 (.inr (.inl (hz 0)))
  have wz : z.Wf := by
    have hw := C48_ends_from_operands Version.Wf x y z 2 (Windows.ends_wf wx) (Windows.ends_wf wy) (.inr (.inl (hz 0)))
    cases z with
    | empty => trivial
    | item t => exact hw t rfl
    | union l => exact hw
  have mz w : z.Mem w ↔ o.version.key ≤ w.key ∧ w.key < n.key ∨ p.version.key ≤ w.key ∧ w.key < m.key := by
    rw [← hn, ← hm, Windows.set_mem hr hx, Windows.set_mem hq hy, ← C21_union_exact x y z nx ny 2 (hz 0), vset_contains_iff_mem]
  refine ⟨n, m, z, en, em, hz, ?_⟩
  simp only [vle_iff, vlt_iff] at h ⊢
  have left (c : p.version.key ≤ n.key) (d : m.key ≤ n.key) := Windows.shape nz wz co.wf nw ln fun w => by
    rw [mz]
    exact ⟨fun e => e.elim id fun e => ⟨h.trans e.1, lt_of_lt_of_le e.2 d⟩, .inl⟩
  have right (c : p.version.key ≤ n.key) (d : n.key ≤ m.key) := Windows.shape nz wz co.wf mw (lt_of_lt_of_le ln d) fun w => by
    rw [mz]
    refine ⟨fun e => e.elim (fun e => ⟨e.1, lt_of_lt_of_le e.2 d⟩) fun e => ⟨h.trans e.1, e.2⟩, fun e => ?_⟩
    rcases lt_or_ge w.key n.key with f | f
    · exact .inl ⟨e.1, f⟩
    · exact .inr ⟨c.trans f, e.2⟩
  refine ⟨fun w => by rw [← mz, vset_contains_iff_mem], ⟨?_, fun c => ?_⟩, fun c d => (left c d).1, fun c d => (right c d).1⟩
  · rintro ⟨t, rfl⟩
    by_contra c
    rw [not_le] at c
    have h1 : t.Mem n := item_convex ((mz _).2 (.inl ⟨le_rfl, ln⟩)) ((mz _).2 (.inr ⟨le_rfl, lm⟩)) ((vle_iff _ _).2 ln.le) ((vle_iff _ _).2 c.le)
    rcases (mz n).1 h1 with e | e
    · exact absurd e.2 (lt_irrefl _)
    · exact absurd e.1 (not_le_of_gt c)
  · rcases le_total m.key n.key with d | d
    · obtain ⟨-, t, e, -⟩ := left c d
      exact ⟨_, e⟩
    · obtain ⟨-, t, e, -⟩ := right c d
      exact ⟨_, e⟩

/-- The sets of `^1.2` and `^2` join to the range from 1.2 up to 3, those of `^1.2` and `^2.1` to no single range. -/
example (x y : VSet) (hx : VSet.parse 5 "^1.2".toList = .ok x) (hy : VSet.parse 5 "^2.1".toList = .ok y) :
    ∃ z, x.unionWith 9 y = .ok z ∧ ¬ ∃ t, z = .item t := by
  obtain ⟨n, m, z, hn, -, hz, -, h, -⟩ := C136_sets 5 _ _ (.mk .caret (exVersion [1, 2])) (.mk .caret (exVersion [2, 1])) x y (by rfl) (by rfl) hx hy
    ⟨rfl, rfl⟩ ⟨rfl, rfl⟩ 0 0 (by decide +kernel) (by decide +kernel) (by decide +kernel)
  refine ⟨z, hz 7, fun c => absurd (h.1 c) ?_⟩
  obtain rfl := Except.ok.inj (hn.symm.trans (show _ = Except.ok (exVersion [2, 0]) by decide +kernel))
  decide +kernel

example : ((VSet.parse 5 "^1.2".toList).bind fun x => (VSet.parse 5 "^2".toList).bind fun y => (x.unionWith 2 y).bind fun z => z.toShortStr 5) =
    .ok ">=1.2,<3".toList := by
  decide +kernel

end Verif
