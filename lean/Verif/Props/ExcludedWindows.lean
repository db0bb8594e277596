import Verif.Props.SplitWindows
/-!
# C139: what `!= w.*` leaves of `^`, `~`, `~=` and `== v.*`
-/

namespace Verif

/-- C139. `!= w.*` on a stable version accepts exactly what is below `w` and what is from the bump of `w` on. -/
theorem C139_accepts (w : Version) (hw : w.Sane) (sw : w.pre = none ∧ w.dev = none) (j : Nat) (hj : (Operator.mk .wildcardEqual w).EndsAt j) :
    ∃ m, w.nextAt j = .ok m ∧ ∀ x, (Operator.mk .wildcardNotEqual w).accepts x = .ok true ↔ x <ₚ w ∨ m ≤ₚ x := by
  obtain ⟨m, em, -, -, hm⟩ := Windows.window (p := ⟨.wildcardEqual, w⟩) hw sw hj
  refine ⟨m, em, fun x => ?_⟩
  have h := hm x
  change x.matchesWildcardEqual w = .ok true ↔ w.key ≤ x.key ∧ x.key < m.key at h
  change x.matchesWildcardNotEqual w = .ok true ↔ _
  obtain ⟨b, hb⟩ : ∃ b, x.matchesWildcardEqual w = .ok b := by
    by_cases hp : w.post = none
    · have h2 : 2 ≤ w.release.precision := by have := hj.1 hp; change j + 2 = w.release.precision at this; omega
      obtain ⟨k, hk, -⟩ := (wildcard_spec hw.valid).2.1 sw.1 hp sw.2 h2
      exact ⟨_, wildcardEqual_ok hk x⟩
    · obtain ⟨k, hk, -⟩ := (wildcard_spec hw.valid).2.2.1 sw.1 hp sw.2
      exact ⟨_, wildcardEqual_ok hk x⟩
  rw [hb] at h
  simp only [Version.matchesWildcardNotEqual, hb, vlt_iff, vle_iff]
  change Except.ok (!b) = Except.ok true ↔ _
  cases b <;> simp at h ⊢ <;> grind

/-- `!= 1.4.*` accepts 1.5 and not 1.4.7. -/
example : (Operator.mk .wildcardNotEqual (exVersion [1, 4, 0])).accepts (exVersion [1, 5]) = .ok true ∧
    (Operator.mk .wildcardNotEqual (exVersion [1, 4, 0])).accepts (exVersion [1, 4, 7]) ≠ .ok true := by
  obtain ⟨m, hm, h⟩ := C139_accepts (exVersion [1, 4, 0]) ⟨by decide +kernel, by decide +kernel⟩ ⟨rfl, rfl⟩ 1 (by decide +kernel)
  obtain rfl := Except.ok.inj (hm.symm.trans (show _ = Except.ok (exVersion [1, 5, 0]) by decide +kernel))
  exact ⟨(h _).2 (.inr (by decide +kernel)), fun c => absurd ((h _).1 c) (by decide +kernel)⟩

/-- C139. `intersection` of the set of one of `^`, `~`, `~=` and `== v.*`, ending at `n`, with the set of `!= w.*`, where `== w.*` ends at
`m`: one of nothing, the whole, one of its ends, or both. -/
theorem C139_sets (lim : Nat) (r q : PyStr) (o : Operator) (w : Version) (x y : VSet) (hr : Specifier.parse r = .ok (.one o))
    (hq : Specifier.parse q = .ok (.one ⟨.wildcardNotEqual, w⟩)) (hx : VSet.parse lim r = .ok x) (hy : VSet.parse lim q = .ok y)
    (so : o.version.pre = none ∧ o.version.dev = none) (sw : w.pre = none ∧ w.dev = none) (i j : Nat)
    (hi : o.EndsAt i) (hj : (Operator.mk .wildcardEqual w).EndsAt j) :
    ∃ n m z, o.version.nextAt i = .ok n ∧ w.nextAt j = .ok m ∧ (∀ k, x.intersection k y = .ok z) ∧
      (n ≤ₚ w ∨ m ≤ₚ o.version → z.eq x = true) ∧
      (w ≤ₚ o.version → n ≤ₚ m → z = .empty) ∧
      (w ≤ₚ o.version → o.version <ₚ m → m <ₚ n → z.eq (.item (.range ⟨some m, some n, true, false⟩)) = true) ∧
      (o.version <ₚ w → w <ₚ n → n ≤ₚ m → z.eq (.item (.range ⟨some o.version, some w, true, false⟩)) = true) ∧
      (o.version <ₚ w → m <ₚ n →
        z.eq (.union [.range ⟨some o.version, some w, true, false⟩, .range ⟨some m, some n, true, false⟩]) = true) := by
  have co := Windows.read_canonical hr
  have cw : w.Canonical := Windows.read_canonical hq
  have ho : o.version.Sane := ⟨co.valid, co.release⟩
  have hw : w.Sane := ⟨cw.valid, cw.release⟩
  have ov := co.wf
  have wv := cw.wf
  obtain ⟨nx, cx⟩ := C67_parsed lim r x hx
  obtain ⟨ny, cy⟩ := C67_parsed lim q y hy
  have wx := VSet.Canonical.wf cx
  have wy := VSet.Canonical.wf cy
  obtain ⟨n, en, nw, ln, hn⟩ := Windows.window ho so hi
  obtain ⟨m, em, mw, lm, -⟩ := Windows.window (p := ⟨.wildcardEqual, w⟩) hw sw hj
  change w.key < m.key at lm
  obtain ⟨m', em', hm⟩ := C139_accepts w hw sw j hj
  obtain rfl := Except.ok.inj (em.symm.trans em')
  simp only [vlt_iff, vle_iff] at hm
  obtain ⟨z, hz, mz⟩ := C20_intersection_exact x y nx ny
  have nz : z.Normal := C19_normal_closed x y z nx ny 0 (.inl (hz 0))
  have wz := Windows.result_wf wx wy (.inl (hz 0))
  simp only [vset_contains_iff_mem, ← Windows.set_mem hq hy, hm] at mz
  have mx u : x.Mem u ↔ o.version.key ≤ u.key ∧ u.key < n.key := by rw [← Windows.set_mem hr hx, hn]
  simp only [mx] at mz
  refine ⟨n, m, z, en, em, hz, ?_⟩
  simp only [vle_iff, vlt_iff]
  refine ⟨fun c => (C28_eq_iff_same_versions z x nz nx wz wx).2 fun u _ => ?_, fun c d => Windows.none_eq nz wz fun u => ?_,
    fun c d e => Windows.co_eq nz wz mw nw e fun u => ?_, fun c d e => Windows.co_eq nz wz ov wv c fun u => ?_,
    fun c d => Windows.pair_eq nz wz ov wv mw nw c d lm fun u => ?_⟩
  · rw [mz, mx]; grind
  · rw [mz]; grind
  · rw [mz]; grind
  · rw [mz]; grind
  · rw [mz]; grind

/-- `^1.2` with `!= 1.4.*` is what is below 1.4 and what is from 1.5 on. -/
example (x y : VSet) (hx : VSet.parse 5 "^1.2".toList = .ok x) (hy : VSet.parse 5 "!=1.4.*".toList = .ok y) :
    ∃ z, x.intersection 9 y = .ok z ∧
      z.eq (.union [exRange (some [1, 2]) (some [1, 4]), exRange (some [1, 5]) (some [2, 0])]) = true := by
  obtain ⟨n, m, z, hn, hm, hz, -, -, -, -, h⟩ := C139_sets 5 _ _ (.mk .caret (exVersion [1, 2])) (exVersion [1, 4, 0]) x y (by rfl) (by rfl) hx hy
    ⟨rfl, rfl⟩ ⟨rfl, rfl⟩ 0 1 (by decide +kernel) (by decide +kernel)
  obtain rfl := Except.ok.inj (hn.symm.trans (show _ = Except.ok (exVersion [2, 0]) by decide +kernel))
  obtain rfl := Except.ok.inj (hm.symm.trans (show _ = Except.ok (exVersion [1, 5, 0]) by decide +kernel))
  have e := h (by decide +kernel) (by decide +kernel)
  have nz : z.Normal := C19_normal_closed x y z (C67_parsed 5 _ x hx).1 (C67_parsed 5 _ y hy).1 0 (.inl (hz 0))
  exact ⟨z, hz 9, (C28_equivalence _ _ _ nz (by decide +kernel) (by decide +kernel)).2.2.1 e (by decide +kernel)⟩

end Verif
