import Verif.Props.JoinedWindows
/-!
# C137: what a bound leaves of `^`, `~`, `~=` and `== v.*`
-/

namespace Verif

namespace Windows

theorem mem_co (a b u : Version) : (VSet.item (.range ⟨some a, some b, true, false⟩)).Mem u ↔ a.key ≤ u.key ∧ u.key < b.key := by
  simp [VSet.Mem, Item.Mem, AboveMin, BelowMax, vlt_iff, veq_iff, le_iff_lt_or_eq]

theorem mem_oo (a b u : Version) : (VSet.item (.range ⟨some a, some b, false, false⟩)).Mem u ↔ a.key < u.key ∧ u.key < b.key := by
  simp [VSet.Mem, Item.Mem, AboveMin, BelowMax, vlt_iff]

theorem mem_cc (a b u : Version) : (VSet.item (.range ⟨some a, some b, true, true⟩)).Mem u ↔ a.key ≤ u.key ∧ u.key ≤ b.key := by
  simp [VSet.Mem, Item.Mem, AboveMin, BelowMax, vlt_iff, veq_iff, le_iff_lt_or_eq]

theorem mem_point (a u : Version) : (VSet.item (.point a)).Mem u ↔ a.key = u.key := veq_iff a u

theorem mem_pair (a b c d u : Version) :
    (VSet.union [.range ⟨some a, some b, true, false⟩, .range ⟨some c, some d, false, false⟩]).Mem u ↔
      a.key ≤ u.key ∧ u.key < b.key ∨ c.key < u.key ∧ u.key < d.key := by
  rw [← mem_co, ← mem_oo]
  simp [VSet.Mem]

theorem span_fine {a b : Version} (ha : a.Wf) (hb : b.Wf) (lt : a.key < b.key) (i j : Bool) :
    (Item.range ⟨some a, some b, i, j⟩).Normal ∧ (Item.range ⟨some a, some b, i, j⟩).Wf :=
  ⟨⟨by rintro ⟨⟩, by rintro ⟨⟩, by rintro _ _ ⟨⟩ ⟨⟩; exact (vlt_iff _ _).2 lt⟩, by rintro _ ⟨⟩; exact ha, by rintro _ ⟨⟩; exact hb⟩

theorem eq_empty {z : VSet} (h : z.eq .empty = true) : z = .empty := by cases z <;> simp [VSet.eq] at h ⊢

end Windows

/-- C137. `intersection` of the set of one of `^`, `~`, `~=` and `== v.*` on a stable version, which ends at `n`, with the set of a bound. -/
theorem C137_cut (lim : Nat) (r q : PyStr) (t : OpType) (w : Version) (p : Operator) (x y : VSet) (hr : Specifier.parse r = .ok (.one p))
    (hq : Specifier.parse q = .ok (.one ⟨t, w⟩)) (hx : VSet.parse lim r = .ok x) (hy : VSet.parse lim q = .ok y)
    (sp : p.version.pre = none ∧ p.version.dev = none) (j : Nat) (hj : p.EndsAt j) :
    ∃ n z, p.version.nextAt j = .ok n ∧ (∀ k, x.intersection k y = .ok z) ∧
      (t = .greaterOrEqual →
        (w ≤ₚ p.version → z.eq (.item (.range ⟨some p.version, some n, true, false⟩)) = true) ∧
        (p.version ≤ₚ w → w <ₚ n → z.eq (.item (.range ⟨some w, some n, true, false⟩)) = true) ∧ (n ≤ₚ w → z = .empty)) ∧
      (t = .greater →
        (w <ₚ p.version → z.eq (.item (.range ⟨some p.version, some n, true, false⟩)) = true) ∧
        (p.version ≤ₚ w → w <ₚ n → z.eq (.item (.range ⟨some w, some n, false, false⟩)) = true) ∧ (n ≤ₚ w → z = .empty)) ∧
      (t = .less →
        (w ≤ₚ p.version → z = .empty) ∧
        (p.version <ₚ w → w ≤ₚ n → z.eq (.item (.range ⟨some p.version, some w, true, false⟩)) = true) ∧
        (n ≤ₚ w → z.eq (.item (.range ⟨some p.version, some n, true, false⟩)) = true)) ∧
      (t = .lessOrEqual →
        (w <ₚ p.version → z = .empty) ∧ (w ==ₚ p.version → z.eq (.item (.point w)) = true) ∧
        (p.version <ₚ w → w <ₚ n → z.eq (.item (.range ⟨some p.version, some w, true, true⟩)) = true) ∧
        (n ≤ₚ w → z.eq (.item (.range ⟨some p.version, some n, true, false⟩)) = true)) ∧
      (t ∈ [.doubleEqual, .equal] →
        (p.version ≤ₚ w → w <ₚ n → z.eq (.item (.point w)) = true) ∧ (w <ₚ p.version ∨ n ≤ₚ w → z = .empty)) ∧
      (t = .notEqual →
        (w <ₚ p.version ∨ n ≤ₚ w → z.eq (.item (.range ⟨some p.version, some n, true, false⟩)) = true) ∧
        (w ==ₚ p.version → z.eq (.item (.range ⟨some w, some n, false, false⟩)) = true) ∧
        (p.version <ₚ w → w <ₚ n →
          z.eq (.union [.range ⟨some p.version, some w, true, false⟩, .range ⟨some w, some n, false, false⟩]) = true)) := by
  have cp := Windows.read_canonical hr
  have ww : w.Wf := (Windows.read_canonical hq).wf
  have hp : p.version.Sane := ⟨cp.valid, cp.release⟩
  obtain ⟨nx, cx⟩ := C67_parsed lim r x hx
  obtain ⟨ny, cy⟩ := C67_parsed lim q y hy
  have wx := VSet.Canonical.wf cx
  have wy := VSet.Canonical.wf cy
  obtain ⟨n, en, nw, ln, hn⟩ := Windows.window hp sp hj
  obtain ⟨z, hz, mz⟩ := C20_intersection_exact x y nx ny
  have nz : z.Normal := C19_normal_closed x y z nx ny 0 (.inl (hz 0))
  have wz : z.Wf := by
    have hw := C48_ends_from_operands Version.Wf x y z 0 (Windows.ends_wf wx) (Windows.ends_wf wy) (.inl (hz 0))
    cases z with
    | empty => trivial
    | item t => exact hw t rfl
    | union l => exact hw
  have ge x : (Operator.mk .greaterOrEqual w).accepts x = .ok true ↔ w.key ≤ x.key := Windows.ok_true.trans (vge_iff x w)
  have gt x : (Operator.mk .greater w).accepts x = .ok true ↔ w.key < x.key := Windows.ok_true.trans (vgt_iff x w)
  have ls x : (Operator.mk .less w).accepts x = .ok true ↔ x.key < w.key := Windows.ok_true.trans (vlt_iff x w)
  have le x : (Operator.mk .lessOrEqual w).accepts x = .ok true ↔ x.key ≤ w.key := Windows.ok_true.trans (vle_iff x w)
  have eq x : (Operator.mk .doubleEqual w).accepts x = .ok true ↔ x.key = w.key := Windows.ok_true.trans (veq_iff x w)
  have eq' x : (Operator.mk .equal w).accepts x = .ok true ↔ x.key = w.key := Windows.ok_true.trans (veq_iff x w)
  have ne x : (Operator.mk .notEqual w).accepts x = .ok true ↔ x.key ≠ w.key := by
    refine Windows.ok_true.trans ?_
    rw [Bool.not_eq_true', ← Bool.not_eq_true, veq_iff]
  have key u : z.Mem u ↔ (p.version.key ≤ u.key ∧ u.key < n.key) ∧ (Operator.mk t w).accepts u = .ok true := by
    rw [← hn, Windows.set_mem hr hx, Windows.set_mem hq hy, ← mz, vset_contains_iff_mem]
  have same {s : VSet} (ns : s.Normal) (ws : s.Wf) (h : ∀ u : Version, z.Mem u ↔ s.Mem u) : z.eq s = true :=
    (C28_eq_iff_same_versions z s nz ns wz ws).2 fun u _ => h u
  have none (h : ∀ u : Version, ¬ z.Mem u) : z = .empty := Windows.eq_empty (same (s := .empty) trivial trivial fun u => iff_of_false (h u) id)
  have span {a b : Version} (ha : a.Wf) (hb : b.Wf) (lt : a.key < b.key) (i j : Bool)
      (h : ∀ u : Version, z.Mem u ↔ (VSet.item (.range ⟨some a, some b, i, j⟩)).Mem u) : z.eq (.item (.range ⟨some a, some b, i, j⟩)) = true :=
    same (Windows.span_fine ha hb lt i j).1 (Windows.span_fine ha hb lt i j).2 h
  have point (h : ∀ u : Version, z.Mem u ↔ (VSet.item (.point w)).Mem u) : z.eq (.item (.point w)) = true :=
    same trivial ⟨by rintro _ ⟨⟩; exact ww, by rintro _ ⟨⟩; exact ww⟩ h
  have pv := cp.wf
  refine ⟨n, z, en, hz, ?_⟩
  simp only [vle_iff, vlt_iff, veq_iff]
  refine ⟨?_, ?_, ?_, ?_, ?_, ?_⟩
  · rintro rfl
    simp only [ge] at key
    refine ⟨fun c => span pv nw ln _ _ fun u => ?_, fun c d => span ww nw d _ _ fun u => ?_, fun c => none fun u => ?_⟩ <;>
      simp only [key, Windows.mem_co] <;> grind
  · rintro rfl
    simp only [gt] at key
    refine ⟨fun c => span pv nw ln _ _ fun u => ?_, fun c d => span ww nw d _ _ fun u => ?_, fun c => none fun u => ?_⟩ <;>
      simp only [key, Windows.mem_co, Windows.mem_oo] <;> grind
  · rintro rfl
    simp only [ls] at key
    refine ⟨fun c => none fun u => ?_, fun c d => span pv ww c _ _ fun u => ?_, fun c => span pv nw ln _ _ fun u => ?_⟩ <;>
      simp only [key, Windows.mem_co] <;> grind
  · rintro rfl
    simp only [le] at key
    refine ⟨fun c => none fun u => ?_, fun c => point fun u => ?_, fun c d => span pv ww c _ _ fun u => ?_, fun c => span pv nw ln _ _ fun u => ?_⟩ <;>
      simp only [key, Windows.mem_co, Windows.mem_cc, Windows.mem_point] <;> grind
  · intro ht
    have key' u : z.Mem u ↔ (p.version.key ≤ u.key ∧ u.key < n.key) ∧ u.key = w.key := by
      rw [key]
      simp only [List.mem_cons, List.not_mem_nil, or_false] at ht
      rcases ht with rfl | rfl
      · rw [eq]
      · rw [eq']
    refine ⟨fun c d => point fun u => ?_, fun c => none fun u => ?_⟩ <;> simp only [key', Windows.mem_point] <;> grind
  · rintro rfl
    simp only [ne] at key
    refine ⟨fun c => span pv nw ln _ _ fun u => ?_, fun c => span ww nw (c ▸ ln) _ _ fun u => ?_, fun c d => same ?_ ?_ fun u => ?_⟩
    · simp only [key, Windows.mem_co]; grind
    · simp only [key, Windows.mem_oo]; grind
    · refine ⟨le_rfl, ?_, ?_⟩
      · simp only [List.mem_cons, List.not_mem_nil, or_false, forall_eq_or_imp, forall_eq]
        exact ⟨(Windows.span_fine pv ww c _ _).1, (Windows.span_fine ww nw d _ _).1⟩
      · simp only [List.pairwise_cons, List.mem_singleton, forall_eq, List.not_mem_nil, false_imp_iff, implies_true, List.Pairwise.nil, and_true]
        exact ⟨w, w, rfl, rfl, .inr ⟨(veq_iff _ _).2 rfl, rfl, rfl⟩⟩
    · intro i hi
      simp only [List.mem_cons, List.not_mem_nil, or_false] at hi
      rcases hi with rfl | rfl
      · exact (Windows.span_fine pv ww c _ _).2
      · exact (Windows.span_fine ww nw d _ _).2
    · simp only [key, Windows.mem_pair]; grind

/-- `^1.2` without 1.5 is two ranges, and with `<= 1.5` the range from 1.2 to 1.5, both included. -/
example (x y : VSet) (hx : VSet.parse 5 "^1.2".toList = .ok x) (hy : VSet.parse 5 "!=1.5".toList = .ok y) :
    ∃ z, x.intersection 9 y = .ok z ∧ z.eq (.union [exRange (some [1, 2]) (some [1, 5]) true, exRange (some [1, 5]) (some [2, 0]) false]) = true := by
  obtain ⟨n, z, hn, hz, -, -, -, -, -, h⟩ := C137_cut 5 _ _ .notEqual (exVersion [1, 5]) (.mk .caret (exVersion [1, 2])) x y (by rfl) (by rfl) hx hy
    ⟨rfl, rfl⟩ 0 (by decide +kernel)
  obtain rfl := Except.ok.inj (hn.symm.trans (show _ = Except.ok (exVersion [2, 0]) by decide +kernel))
  exact ⟨z, hz 9, (h rfl).2.2 (by decide +kernel) (by decide +kernel)⟩

example : ((VSet.parse 5 "^1.2".toList).bind fun x => (VSet.parse 5 "<=1.5".toList).bind fun y => (x.intersection 2 y).bind fun z => z.toShortStr 5) =
    .ok ">=1.2,<=1.5".toList := by
  decide +kernel

end Verif
