import Verif.Proofs.Caches
import Verif.Props.Specifiers
/-!
# The caches of the converters (C36, C37)
-/

namespace Verif
open scoped Verif
namespace Specifier

/-- The cache of `specifier_to_version_set` after converting the given specifiers one after the other in a new process. -/
def toSetHistory (H : Hasher) (lim : Nat) (history : List Specifier) : Cache Specifier VSet :=
  Cached.after (history.map (toSetCached H lim))

/-- The cache of `version_set_to_specifier` after converting the given sets one after the other in a new process. -/
def fromSetHistory (H : Hasher) (lim : Nat) (history : List VSet) : Cache VSet Specifier :=
  Cached.after (history.map (fromSetCached H lim))

end Specifier

/-- The operators `==`, `=`, `!=`, `<`, `<=`, `>`, `>=`. -/
def OpType.Simple (t : OpType) : Prop :=
  t = .doubleEqual ∨ t = .equal ∨ t = .notEqual ∨ t = .less ∨ t = .lessOrEqual ∨ t = .greater ∨ t = .greaterOrEqual

/-- A collection of operators that a program uses: each one accepted by the constructor, and if two are equal then they are
simple or on the same version (not just on equal versions, such as `1.0` and `1.0.0`). -/
structure Distinct (Q : Operator → Prop) : Prop where
  valid : ∀ o, Q o → o.version.Valid ∧ (o.type = .tildeEqual → 2 ≤ o.version.release.precision)
  same : ∀ o p, Q o → Q p → o.eq p = true → o.type.Simple ∨ o.version = p.version

/-- The results of two calls: equal sets, or the same exception. -/
def EqualResults (r s : Except PyErr VSet) : Prop :=
  (∃ x y, r = .ok x ∧ s = .ok y ∧ x.eq y = true) ∨ ∃ e, r = .error e ∧ s = .error e

theorem SameSet.equalResults {r s : Except PyErr VSet} (h : SameSet r s) : EqualResults r s := by
  cases r <;> cases s <;> simp only [SameSet] at h
  · exact .inr ⟨_, rfl, by rw [h]⟩
  · exact .inl ⟨_, _, rfl, rfl, (eq_iff_cov h.1 h.2.1).2 h.2.2⟩

theorem item_same {i j : Item} (hi : i.Normal) (hj : j.Normal) (h1 : i.lo = j.lo) (h2 : i.hi = j.hi) :
    SameSet (.ok (.item i)) (.ok (.item j)) :=
  ⟨hi, hj, fun c => by simp only [VSet.Cov, VSet.extract, cov_cons, cov_nil, or_false, h1, h2]⟩

theorem simple_same {o p : Operator} (h : o.eq p = true) (hs : o.type.Simple) (lim : Nat) :
    SameSet (o.toSet lim) (p.toSet lim) := by
  obtain ⟨t, v⟩ := o
  obtain ⟨u, w⟩ := p
  simp only [Operator.eq, Bool.and_eq_true, veq_iff] at h
  obtain ⟨h1, hk⟩ := h
  have hc : ∀ b, cutAt v b = cutAt w b := fun b => (cutAt_eq v w b b).2 ⟨hk, rfl⟩
  have hpoint : SameSet (.ok (.item (.point v))) (.ok (.item (.point w))) :=
    item_same (point_normal v) (point_normal w) (hc _) (hc _)
  rw [Specifier.opType_eq_iff] at h1
  rcases hs with rfl | rfl | rfl | rfl | rfl | rfl | rfl <;> simp only at h1 <;> cases u <;> simp only [reduceCtorEq] at h1
  · exact hpoint
  · exact hpoint
  · exact hpoint
  · exact hpoint
  · obtain ⟨l, l1, l2, l3⟩ := complement_point v
    obtain ⟨m, m1, m2, m3⟩ := complement_point w
    simp only [Operator.toSet, OpType.translate, Version.translateNotEqual, Version.translateEqual, l1, m1, bind, Except.bind]
    refine ⟨l2, m2, fun c => ?_⟩
    rw [l3, m3, hpoint.2.2 c]
  · exact item_same ⟨by simp, by simp, by simp⟩ ⟨by simp, by simp, by simp⟩ rfl (hc _)
  · exact item_same ⟨by simp, by simp, by simp⟩ ⟨by simp, by simp, by simp⟩ rfl (hc _)
  · exact item_same ⟨by simp, by simp, by simp⟩ ⟨by simp, by simp, by simp⟩ (hc _) rfl
  · exact item_same ⟨by simp, by simp, by simp⟩ ⟨by simp, by simp, by simp⟩ (hc _) rfl

theorem Distinct.coherent {Q : Operator → Prop} (h : Distinct Q) (lim : Nat) : Specifier.Coherent lim Q := by
  refine ⟨h.valid, fun o p ho hp he => ?_⟩
  rcases h.same o p ho hp he with hs | hv
  · exact simple_same he hs lim
  · have : o.toSet lim = p.toSet lim := by
      obtain ⟨t, v⟩ := o
      obtain ⟨u, w⟩ := p
      simp only at hv
      subst hv
      simp only [Operator.eq, Bool.and_eq_true, Specifier.opType_eq_iff] at he
      have he := he.1
      cases t <;> cases u <;> first | rfl | (simp only [reduceCtorEq] at he)
    rw [← this]
    have := Specifier.sameSet_refl (lim := lim) (Q := fun q => q = o) ⟨fun q hq => by rw [hq]; exact h.valid o ho,
      fun q r hq hr _ => by
        rw [hq, hr]
        rcases op_view (h.valid o ho).1 (h.valid o ho).2 with ⟨s, s1, s2, -⟩ | ⟨s1, -⟩
        · rw [s1]; exact ⟨s2, s2, fun _ => Iff.rfl⟩
        · rw [s1]; rfl⟩ (.one (Q := fun q => q = o) (rfl : o = o)) lim
    simpa only [Specifier.toSet] using this

theorem toSetHistory_ok (H : Hasher) (lim : Nat) {Q : Operator → Prop} (hQ : Specifier.Coherent (lim + 2) Q) (history : List Specifier)
    (hh : ∀ t ∈ history, t.Over Q) : Specifier.CacheOk (lim + 2) Q (Specifier.toSetHistory H (lim + 2) history) := by
  unfold Specifier.toSetHistory Cached.after
  have : ∀ (l : List Specifier) (c : Cache Specifier VSet), (∀ t ∈ l, t.Over Q) → Specifier.CacheOk (lim + 2) Q c →
      Specifier.CacheOk (lim + 2) Q ((l.map (Specifier.toSetCached H (lim + 2))).foldl (fun c call => (call c).2) c) := by
    intro l
    induction l with
    | nil => exact fun c _ hc => hc
    | cons s l ih =>
      intro c hl hc
      exact ih _ (fun t ht => hl t (by simp [ht])) (Specifier.toSetCached_computes H hQ (hl s (by simp)) c hc).2
  exact this history [] hh (by intro e he; cases he)

/-- C36. In programs whose operators are distinct in the sense above, converting a specifier gives a set equal to the one
computed without cache (or the same exception), whatever was converted before. -/
theorem C36_history_independent (H : Hasher) (lim : Nat) (Q : Operator → Prop) (hQ : Distinct Q) (history : List Specifier)
    (hh : ∀ t ∈ history, t.Over Q) (s : Specifier) (hs : s.Over Q) :
    EqualResults (s.toSetCached H (lim + 2) (Specifier.toSetHistory H (lim + 2) history)).1 (s.toSet (lim + 2)) :=
  (Specifier.toSetCached_computes H (hQ.coherent _) hs _ (toSetHistory_ok H lim (hQ.coherent _) history hh)).1.equalResults

example (H : Hasher) : EqualResults ((Specifier.one ⟨.caret, exVersion [1, 2]⟩).toSetCached H 7 (Specifier.toSetHistory H 7
    [.one ⟨.caret, exVersion [1, 2]⟩, .always])).1 ((Specifier.one ⟨.caret, exVersion [1, 2]⟩).toSet 7) :=
  C36_history_independent H 5 (fun o => o = ⟨.caret, exVersion [1, 2]⟩)
    ⟨by rintro _ rfl; decide +kernel, by rintro _ _ rfl rfl _; exact .inr rfl⟩ _
    (by simp only [List.mem_cons, List.not_mem_nil, or_false, forall_eq_or_imp, forall_eq]; exact ⟨.one rfl, .always⟩) _ (.one rfl)

/-- C36. Specifiers using only simple operators. -/
theorem C36_simple_operators (H : Hasher) (lim : Nat) (history : List Specifier)
    (hh : ∀ t ∈ history, t.Over (fun o => o.version.Valid ∧ o.type.Simple)) (s : Specifier)
    (hs : s.Over (fun o => o.version.Valid ∧ o.type.Simple)) :
    EqualResults (s.toSetCached H (lim + 2) (Specifier.toSetHistory H (lim + 2) history)).1 (s.toSet (lim + 2)) := by
  refine C36_history_independent H lim _ ⟨fun o ho => ⟨ho.1, fun h => ?_⟩, fun o p ho _ _ => .inl ho.2⟩ history hh s hs
  rw [h] at ho
  exact absurd ho.2 (by simp [OpType.Simple])

example (H : Hasher) : EqualResults ((Specifier.one ⟨.less, exVersion [2, 0]⟩).toSetCached H 7 (Specifier.toSetHistory H 7
    [.one ⟨.less, exVersion [2]⟩])).1 (.ok (.item (exRange none (some [2, 0]) false))) := by
  have h := C36_simple_operators H 5 [.one ⟨.less, exVersion [2]⟩]
    (by simp only [List.mem_cons, List.not_mem_nil, or_false, forall_eq]; exact .one ⟨by decide +kernel, by unfold OpType.Simple; decide⟩)
    (.one ⟨.less, exVersion [2, 0]⟩) (.one ⟨by decide +kernel, by unfold OpType.Simple; decide⟩)
  rwa [show (Specifier.one ⟨.less, exVersion [2, 0]⟩).toSet 7 = .ok (.item (exRange none (some [2, 0]) false)) by decide +kernel] at h

/-- C36. In a new process nothing goes wrong for one operator: the first conversion is the one without cache. -/
theorem C36_first_call (H : Hasher) (lim : Nat) (o : Operator) :
    ((Specifier.one o).toSetCached H lim []).1 = o.toSet lim := by
  simp only [Specifier.toSetCached, Cached.wrap, List.find?_nil, Cached.pure]
  cases o.toSet lim <;> rfl

example (H : Hasher) : ((Specifier.one ⟨.caret, exVersion [1, 2]⟩).toSetCached H 7 []).1 = .ok (.item (exRange (some [1, 2]) (some [2, 0]))) := by
  rw [C36_first_call]; decide +kernel

/-- C36, violated. `~= 1.0` and `~= 1.0.0` are equal and have equal hashes, but different sets, `[1.0, 2.0)` and
`[1.0.0, 1.1.0)`: converting the one first makes the other convert to the wrong set. -/
theorem C36_violation (H : Hasher) (lim : Nat) :
    ((Specifier.one ⟨.tildeEqual, exVersion [1, 0, 0]⟩).toSetCached H lim
      (Specifier.toSetHistory H lim [.one ⟨.tildeEqual, exVersion [1, 0]⟩])).1 = .ok (.item (exRange (some [1, 0]) (some [2, 0]))) ∧
    (Specifier.one ⟨.tildeEqual, exVersion [1, 0, 0]⟩).toSet lim = .ok (.item (exRange (some [1, 0, 0]) (some [1, 1, 0]))) ∧
    ((Specifier.one ⟨.tildeEqual, exVersion [1, 0, 0]⟩).toSetCached H lim
      (Specifier.toSetHistory H lim [.one ⟨.tildeEqual, exVersion [1, 0]⟩])).1.toOption.map (fun x => x.contains (exVersion [1, 5]))
        = some true ∧
    (Specifier.one ⟨.tildeEqual, exVersion [1, 0, 0]⟩).accepts (exVersion [1, 5]) = .ok false := by
  have h1 : (⟨.tildeEqual, exVersion [1, 0]⟩ : Operator).toSet lim = .ok (.item (exRange (some [1, 0]) (some [2, 0]))) := by
    show (⟨.tildeEqual, exVersion [1, 0]⟩ : Operator).toSet 0 = _
    decide +kernel
  have h2 : ((Specifier.one ⟨.tildeEqual, exVersion [1, 0, 0]⟩).toSetCached H lim
      (Specifier.toSetHistory H lim [.one ⟨.tildeEqual, exVersion [1, 0]⟩])).1 =
        .ok (.item (exRange (some [1, 0]) (some [2, 0]))) := by
    have hc : Specifier.toSetHistory H lim [.one ⟨.tildeEqual, exVersion [1, 0]⟩] =
        [(.one ⟨.tildeEqual, exVersion [1, 0]⟩, .item (exRange (some [1, 0]) (some [2, 0])))] := by
      simp only [Specifier.toSetHistory, Cached.after, List.map_cons, List.map_nil, List.foldl_cons, List.foldl_nil,
        Specifier.toSetCached, Cached.wrap, List.find?_nil, Cached.pure, h1]
    rw [hc]
    have he : (Specifier.one ⟨.tildeEqual, exVersion [1, 0]⟩).eq (.one ⟨.tildeEqual, exVersion [1, 0, 0]⟩) = true := by decide
    have hh : H.specifier (.one ⟨.tildeEqual, exVersion [1, 0]⟩) = H.specifier (.one ⟨.tildeEqual, exVersion [1, 0, 0]⟩) := rfl
    rw [Specifier.toSetCached]
    unfold Cached.wrap
    rw [List.find?_cons_of_pos (by simp [he, hh])]
  refine ⟨h2, ?_, ?_, by decide +kernel⟩
  · show (Specifier.one ⟨.tildeEqual, exVersion [1, 0, 0]⟩).toSet 0 = _
    decide +kernel
  · rw [h2]; decide +kernel

/-- The hypotheses of C36 are met by `^1.2 || == 3` together with `= 3.0, > 1.2.0`. -/
example : ∃ Q, Distinct Q ∧ exAny.Over Q ∧
    (Specifier.all [.one ⟨.equal, exVersion [3, 0]⟩, .one ⟨.greater, exVersion [1, 2, 0]⟩]).Over Q := by
  have h : ∀ l, l ≠ [] → (exVersion l).Valid := fun l hl => exValid _ hl _ _ _ (by simp) (by simp) (by simp)
  refine ⟨fun o => o ∈ [⟨.caret, exVersion [1, 2]⟩, ⟨.doubleEqual, exVersion [3]⟩, ⟨.equal, exVersion [3, 0]⟩,
    ⟨.greater, exVersion [1, 2, 0]⟩], ⟨?_, ?_⟩, ?_, ?_⟩
  · simp only [List.mem_cons, List.not_mem_nil, or_false, forall_eq_or_imp, forall_eq]
    exact ⟨⟨h _ (by simp), by simp⟩, ⟨h _ (by simp), by simp⟩, ⟨h _ (by simp), by simp⟩, ⟨h _ (by simp), by simp⟩⟩
  · intro o p ho hp he
    simp only [List.mem_cons, List.not_mem_nil, or_false] at ho hp
    rcases ho with rfl | rfl | rfl | rfl
    · rcases hp with rfl | rfl | rfl | rfl
      · exact .inr rfl
      all_goals exact absurd he (by decide)
    all_goals exact .inl (by simp [OpType.Simple])
  · exact .any (by simp) (by simp [exAny]; exact ⟨.one (by simp), .one (by simp)⟩)
  · exact .all (by simp) (by simp; exact ⟨.one (by simp), .one (by simp)⟩)

theorem fromSetHistory_ok (H : Hasher) (lim : Nat) (history : List VSet) (hh : ∀ x ∈ history, x.Normal) :
    Specifier.FromOk (Specifier.fromSetHistory H lim history) := by
  unfold Specifier.fromSetHistory Cached.after
  have : ∀ (l : List VSet) (c : Cache VSet Specifier), (∀ t ∈ l, t.Normal) → Specifier.FromOk c →
      Specifier.FromOk ((l.map (Specifier.fromSetCached H lim)).foldl (fun c call => (call c).2) c) := by
    intro l
    induction l with
    | nil => exact fun c _ hc => hc
    | cons s l ih =>
      intro c hl hc
      exact ih _ (fun t ht => hl t (by simp [ht])) (Specifier.fromSetCached_converts H lim (hl s (by simp)) c hc).2
  exact this history [] hh (by intro e he; cases he)

/-- C37. Whatever was converted before, converting a set gives a specifier which is equal to the one computed without cache,
and accepts exactly the versions in the set. -/
theorem C37_history_independent (H : Hasher) (lim : Nat) (history : List VSet) (hh : ∀ x ∈ history, x.Normal) (x : VSet)
    (hx : x.Normal) :
    ∃ t u, (Specifier.fromSetCached H lim x (Specifier.fromSetHistory H lim history)).1 = .ok t ∧ Specifier.fromSet lim x = .ok u ∧
      t.eq u = true ∧ ∀ v : Version, ∃ b, t.accepts v = .ok b ∧ u.accepts v = .ok b ∧ (b = true ↔ x.Mem v) := by
  obtain ⟨⟨t, t1, ⟨u, u1, u2⟩, t3⟩, -⟩ :=
    Specifier.fromSetCached_converts H lim hx _ (fromSetHistory_ok H lim history hh)
  obtain ⟨u', v1, v2, -⟩ := Specifier.fromSet_spec hx
  obtain rfl : u = u' := Except.ok.inj ((u1 0).symm.trans (v1 0))
  exact ⟨t, u, t1, u1 lim, u2, fun v => ⟨_, t3 v, v2 v, vset_contains_iff_mem x v⟩⟩

/-- The cache does matter: after converting `[1, 2)`, converting `[1.0, 2)` gives `>= 1, < 2`, not `>= 1.0, < 2`. -/
example (H : Hasher) : (Specifier.fromSetCached H 5 (.item (exRange (some [1, 0]) (some [2])))
    (Specifier.fromSetHistory H 5 [.item (exRange (some [1]) (some [2]))])).1 =
      .ok (.all [.one ⟨.greaterOrEqual, exVersion [1]⟩, .one ⟨.less, exVersion [2]⟩]) := by
  have hc : Specifier.fromSetHistory H 5 [.item (exRange (some [1]) (some [2]))] =
      [(.item (exRange (some [1]) (some [2])), .all [.one ⟨.greaterOrEqual, exVersion [1]⟩, .one ⟨.less, exVersion [2]⟩])] := by
    rfl
  rw [hc]
  simp only [Specifier.fromSetCached, Specifier.fromItemCached]
  unfold Cached.wrap
  rw [List.find?_cons_of_pos (by
    simp only [Bool.and_eq_true, decide_eq_true_eq]
    exact ⟨rfl, by decide⟩)]

/-- Equality of specifiers is an equivalence, as the dictionaries behind the caches expect. -/
theorem C36_specifier_equivalence (s t u : Specifier) :
    s.eq s = true ∧ (s.eq t = true → t.eq s = true) ∧ (s.eq t = true → t.eq u = true → s.eq u = true) :=
  ⟨Specifier.eq_refl s, Specifier.eq_symm s t, Specifier.eq_trans s t u⟩

example : (Specifier.one ⟨.less, exVersion [2]⟩).eq (.one ⟨.less, exVersion [2, 0]⟩) = true ∧
    (Specifier.one ⟨.less, exVersion [2]⟩).eq (.one ⟨.lessOrEqual, exVersion [2]⟩) = false := by decide +kernel

end Verif
