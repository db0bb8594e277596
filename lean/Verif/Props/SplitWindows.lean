import Verif.Props.CutWindows
/-!
# C138: what two of `^`, `~`, `~=` and `== v.*` have in common and leave of each other
-/

namespace Verif

namespace Windows

theorem mem_pair' (a b c d u : Version) :
    (VSet.union [.range ⟨some a, some b, true, false⟩, .range ⟨some c, some d, true, false⟩]).Mem u ↔
      a.key ≤ u.key ∧ u.key < b.key ∨ c.key ≤ u.key ∧ u.key < d.key := by
  rw [← mem_co, ← mem_co]
  simp [VSet.Mem]

theorem mem_outside (a b u : Version) :
    (VSet.union [.range ⟨none, some a, false, false⟩, .range ⟨some b, none, true, false⟩]).Mem u ↔ u.key < a.key ∨ b.key ≤ u.key := by
  simp [VSet.Mem, Item.Mem, AboveMin, BelowMax, vlt_iff, veq_iff, le_iff_lt_or_eq]

/-- The results of operations on sets with well-formed ends have well-formed ends. -/
theorem result_wf {x y z : VSet} {k : Nat} (wx : x.Wf) (wy : y.Wf)
    (h : x.intersection k y = .ok z ∨ x.unionWith k y = .ok z ∨ x.difference k y = .ok z ∨ x.complement k = .ok z ∨
      x.symmetricDifference k y = .ok z) : z.Wf := by
  have hw := C48_ends_from_operands Version.Wf x y z k (ends_wf wx) (ends_wf wy) h
  cases z with
  | empty => trivial
  | item t => exact hw t rfl
  | union l => exact hw

theorem co_eq {z : VSet} (nz : z.Normal) (wz : z.Wf) {a b : Version} (ha : a.Wf) (hb : b.Wf) (lt : a.key < b.key)
    (h : ∀ u : Version, z.Mem u ↔ a.key ≤ u.key ∧ u.key < b.key) : z.eq (.item (.range ⟨some a, some b, true, false⟩)) = true :=
  (C28_eq_iff_same_versions z (.item (.range ⟨some a, some b, true, false⟩)) nz (span_fine ha hb lt _ _).1 wz (span_fine ha hb lt _ _).2).2 fun u _ => by rw [h, mem_co]

theorem none_eq {z : VSet} (nz : z.Normal) (wz : z.Wf) (h : ∀ u : Version, ¬ z.Mem u) : z = .empty :=
  eq_empty ((C28_eq_iff_same_versions z .empty nz trivial wz trivial).2 fun u _ => iff_of_false (h u) id)

theorem pair_eq {z : VSet} (nz : z.Normal) (wz : z.Wf) {a b c d : Version} (ha : a.Wf) (hb : b.Wf) (hc : c.Wf) (hd : d.Wf) (lt : a.key < b.key)
    (lt' : c.key < d.key) (gap : b.key < c.key) (h : ∀ u : Version, z.Mem u ↔ a.key ≤ u.key ∧ u.key < b.key ∨ c.key ≤ u.key ∧ u.key < d.key) :
    z.eq (.union [.range ⟨some a, some b, true, false⟩, .range ⟨some c, some d, true, false⟩]) = true := by
  refine (C28_eq_iff_same_versions z (.union _) nz ⟨le_rfl, ?_, ?_⟩ wz ?_).2 fun u _ => by rw [h, mem_pair']
  · simp only [List.mem_cons, List.not_mem_nil, or_false, forall_eq_or_imp, forall_eq]
    exact ⟨(span_fine ha hb lt _ _).1, (span_fine hc hd lt' _ _).1⟩
  · simp only [List.pairwise_cons, List.mem_singleton, forall_eq, List.not_mem_nil, false_imp_iff, implies_true, List.Pairwise.nil, and_true]
    exact ⟨b, c, rfl, rfl, .inl ((vlt_iff _ _).2 gap)⟩
  · intro i hi
    simp only [List.mem_cons, List.not_mem_nil, or_false] at hi
    rcases hi with rfl | rfl
    · exact (span_fine ha hb lt _ _).2
    · exact (span_fine hc hd lt' _ _).2

end Windows

/-- C138. `intersection` and `difference` of the sets of two of `^`, `~`, `~=` and `== v.*` on stable versions, the first on the version
that is not above the other, ending at `n` and `m`: `m` is not above `n` exactly if the place that the second increases is not left of the
place that the first does. -/
theorem C138_sets (lim : Nat) (r q : PyStr) (o p : Operator) (x y : VSet) (hr : Specifier.parse r = .ok (.one o))
    (hq : Specifier.parse q = .ok (.one p)) (hx : VSet.parse lim r = .ok x) (hy : VSet.parse lim q = .ok y)
    (so : o.version.pre = none ∧ o.version.dev = none) (sp : p.version.pre = none ∧ p.version.dev = none) (i j : Nat)
    (hi : o.EndsAt i) (hj : p.EndsAt j) (h : o.version ≤ₚ p.version) :
    ∃ n m a b, o.version.nextAt i = .ok n ∧ p.version.nextAt j = .ok m ∧ (∀ k, x.intersection k y = .ok a) ∧ (∀ k, x.difference k y = .ok b) ∧
      (n ≤ₚ p.version → a = .empty ∧ b.eq x = true) ∧
      (p.version <ₚ n → (m ≤ₚ n ↔ i ≤ j)) ∧
      (p.version <ₚ n → n ≤ₚ m → a.eq (.item (.range ⟨some p.version, some n, true, false⟩)) = true ∧
        (o.version <ₚ p.version → b.eq (.item (.range ⟨some o.version, some p.version, true, false⟩)) = true) ∧
        (o.version ==ₚ p.version → b = .empty)) ∧
      (p.version <ₚ n → m <ₚ n → a.eq y = true ∧
        (o.version <ₚ p.version →
          b.eq (.union [.range ⟨some o.version, some p.version, true, false⟩, .range ⟨some m, some n, true, false⟩]) = true) ∧
        (o.version ==ₚ p.version → b.eq (.item (.range ⟨some m, some n, true, false⟩)) = true)) := by
  have co := Windows.read_canonical hr
  have cp := Windows.read_canonical hq
  have ho : o.version.Sane := ⟨co.valid, co.release⟩
  have hp : p.version.Sane := ⟨cp.valid, cp.release⟩
  obtain ⟨nx, cx⟩ := C67_parsed lim r x hx
  obtain ⟨ny, cy⟩ := C67_parsed lim q y hy
  have wx := VSet.Canonical.wf cx
  have wy := VSet.Canonical.wf cy
  obtain ⟨n, en, nw, ln, hn⟩ := Windows.window ho so hi
  obtain ⟨m, em, mw, lm, hm⟩ := Windows.window hp sp hj
  have mx w : x.Mem w ↔ o.version.key ≤ w.key ∧ w.key < n.key := by rw [← Windows.set_mem hr hx, hn]
  have my w : y.Mem w ↔ p.version.key ≤ w.key ∧ w.key < m.key := by rw [← Windows.set_mem hq hy, hm]
  obtain ⟨-, rx, ex, -⟩ := Windows.shape nx wx co.wf nw ln mx
  obtain ⟨-, ry, ey, -⟩ := Windows.shape ny wy cp.wf mw lm my
  obtain ⟨a, ha, ma⟩ := C20_intersection_exact x y nx ny
  obtain ⟨b, hb, mb⟩ := C23_difference_exact x y nx ny (by rintro l ⟨e, -⟩; rw [ex] at e; cases e) (by rintro s l - e; rw [ey] at e; cases e)
  have na : a.Normal := C19_normal_closed x y a nx ny 0 (.inl (ha 0))
  have nb : b.Normal := C19_normal_closed x y b nx ny 0 (.inr (.inr (.inl (hb 0))))
  have wa := Windows.result_wf wx wy (.inl (ha 0))
  have wb := Windows.result_wf wx wy (.inr (.inr (.inl (hb 0))))
  simp only [vset_contains_iff_mem, mx, my] at ma mb
  have imp := C133_implies o p ho hp so sp i j hi hj
  have pv := cp.wf
  have ov := co.wf
  simp only [hn, hm] at imp
  refine ⟨n, m, a, b, en, em, ha, hb, ?_⟩
  simp only [vle_iff, vlt_iff, veq_iff] at h ⊢
  refine ⟨fun c => ⟨Windows.none_eq na wa fun u => ?_, (C28_eq_iff_same_versions b x nb nx wb wx).2 fun u _ => ?_⟩, fun c => ?_, fun c d => ?_, fun c d => ?_⟩
  · rw [ma]; grind
  · rw [mb, mx]; grind
  · constructor
    · intro d
      exact (imp.1 fun u hu => ⟨h.trans hu.1, lt_of_lt_of_le hu.2 d⟩).2
    · intro d
      by_contra e
      rw [not_le] at e
      exact absurd (imp.2 ⟨⟨h, c⟩, d⟩ n ⟨c.le, e⟩).2 (lt_irrefl _)
  · refine ⟨Windows.co_eq na wa pv nw c fun u => ?_, fun e => Windows.co_eq nb wb ov pv e fun u => ?_, fun e => Windows.none_eq nb wb fun u => ?_⟩
    · rw [ma]; grind
    · rw [mb]; grind
    · rw [mb]; grind
  · refine ⟨(C28_eq_iff_same_versions a y na ny wa wy).2 fun u _ => ?_, fun e => Windows.pair_eq nb wb ov pv mw nw e d lm fun u => ?_,
      fun e => Windows.co_eq nb wb mw nw d fun u => ?_⟩
    · rw [ma, my]; grind
    · rw [mb]; grind
    · rw [mb]; grind

/-- `^1.2` without `~1.4.1` is what is below 1.4.1 and what is from 1.5 on. -/
example (x y : VSet) (hx : VSet.parse 5 "^1.2".toList = .ok x) (hy : VSet.parse 5 "~1.4.1".toList = .ok y) :
    ∃ b, x.difference 9 y = .ok b ∧
      b.eq (.union [exRange (some [1, 2]) (some [1, 4, 1]), exRange (some [1, 5, 0]) (some [2, 0])]) = true := by
  obtain ⟨n, m, a, b, hn, hm, -, hb, -, -, -, h⟩ := C138_sets 5 _ _ (.mk .caret (exVersion [1, 2])) (.mk .tilde (exVersion [1, 4, 1])) x y (by rfl) (by rfl)
    hx hy ⟨rfl, rfl⟩ ⟨rfl, rfl⟩ 0 1 (by decide +kernel) (by decide +kernel) (by decide +kernel)
  obtain rfl := Except.ok.inj (hn.symm.trans (show _ = Except.ok (exVersion [2, 0]) by decide +kernel))
  obtain rfl := Except.ok.inj (hm.symm.trans (show _ = Except.ok (exVersion [1, 5, 0]) by decide +kernel))
  exact ⟨b, hb 9, (h (by decide +kernel) (by decide +kernel)).2.1 (by decide +kernel)⟩

/-- C138. `complement` of such a set is what is below the version and what is from the end on. -/
theorem C138_complement (lim : Nat) (r : PyStr) (o : Operator) (x : VSet) (hr : Specifier.parse r = .ok (.one o)) (hx : VSet.parse lim r = .ok x)
    (so : o.version.pre = none ∧ o.version.dev = none) (i : Nat) (hi : o.EndsAt i) :
    ∃ n z, o.version.nextAt i = .ok n ∧ (∀ k, x.complement k = .ok z) ∧
      z.eq (.union [.range ⟨none, some o.version, false, false⟩, .range ⟨some n, none, true, false⟩]) = true := by
  have co := Windows.read_canonical hr
  have ho : o.version.Sane := ⟨co.valid, co.release⟩
  have ov := co.wf
  obtain ⟨nx, cx⟩ := C67_parsed lim r x hx
  have wx := VSet.Canonical.wf cx
  obtain ⟨n, en, nw, ln, hn⟩ := Windows.window ho so hi
  obtain ⟨z, hz, mz⟩ := C24_complement_exact x nx
  refine ⟨n, z, en, hz, ?_⟩
  have nz : z.Normal := C19_normal_closed x x z nx nx 0 (.inr (.inr (.inr (.inl (hz 0)))))
  have wz := Windows.result_wf wx wx (.inr (.inr (.inr (.inl (hz 0)))))
  refine (C28_eq_iff_same_versions z (.union _) nz ⟨le_rfl, ?_, ?_⟩ wz ?_).2 fun u _ => ?_
  · simp only [List.mem_cons, List.not_mem_nil, or_false, forall_eq_or_imp, forall_eq]
    exact ⟨⟨fun _ => rfl, by rintro ⟨⟩, by rintro _ _ ⟨⟩⟩, by rintro ⟨⟩, fun _ => rfl, by rintro _ _ - ⟨⟩⟩
  · simp only [List.pairwise_cons, List.mem_singleton, forall_eq, List.not_mem_nil, false_imp_iff, implies_true, List.Pairwise.nil, and_true]
    exact ⟨_, n, rfl, rfl, .inl ((vlt_iff _ _).2 ln)⟩
  · intro t ht
    simp only [List.mem_cons, List.not_mem_nil, or_false] at ht
    rcases ht with rfl | rfl
    · exact ⟨by rintro _ ⟨⟩, by rintro _ ⟨⟩; exact ov⟩
    · exact ⟨by rintro _ ⟨⟩; exact nw, by rintro _ ⟨⟩⟩
  · rw [← vset_contains_iff_mem, mz, ← Windows.set_mem hr hx, hn, Windows.mem_outside]
    grind

/-- What `~1.2` does not allow: below 1.2 and from 1.3 on. -/
example (x : VSet) (hx : VSet.parse 5 "~1.2".toList = .ok x) :
    ∃ z, x.complement 9 = .ok z ∧ z.eq (.union [exRange none (some [1, 2]) false, exRange (some [1, 3]) none]) = true := by
  obtain ⟨n, z, hn, hz, h⟩ := C138_complement 5 _ (.mk .tilde (exVersion [1, 2])) x (by rfl) hx ⟨rfl, rfl⟩ 1 (by decide +kernel)
  obtain rfl := Except.ok.inj (hn.symm.trans (show _ = Except.ok (exVersion [1, 3]) by decide +kernel))
  exact ⟨z, hz 9, h⟩

end Verif
