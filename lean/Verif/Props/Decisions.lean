import Verif.Props.Shape
import Verif.Props.SetStrings
import Verif.Proofs.SetLevel2
import Verif.Props.Sessions
/-!
# C108: questions about requirement strings, decided with set operations

Questions about all the versions that strings can denote are answered by one call on the sets of the requirement strings,
after the intersection with the set of `>=0.dev0`.
-/

namespace Verif

/-- Some version that a string denotes is accepted by the specifier. -/
def Satisfiable (s : Specifier) : Prop := ∃ u v, Version.parse u = .ok v ∧ s.accepts v = .ok true

/-- Every version that a string denotes and the first specifier accepts is accepted by the second. -/
def Implies (s t : Specifier) : Prop := ∀ u v, Version.parse u = .ok v → s.accepts v = .ok true → t.accepts v = .ok true

/-- Some version that a string denotes is accepted by both specifiers. -/
def Compatible (s t : Specifier) : Prop := ∃ u v, Version.parse u = .ok v ∧ s.accepts v = .ok true ∧ t.accepts v = .ok true

/-- The set of `>=0.dev0`. -/
def leastSet : VSet := .item (.range ⟨some leastVersion, none, true, false⟩)

theorem leastSet_parse (lim : Nat) : VSet.parse lim ">=0.dev0".toList = .ok leastSet := by
  unfold VSet.parse
  rw [show Specifier.parse ">=0.dev0".toList = .ok (.one ⟨.greaterOrEqual, leastVersion⟩) by rfl]
  rfl

theorem leastSet_mem {u : PyStr} {v : Version} (h : Version.parse u = .ok v) : leastSet.Mem v := by
  obtain ⟨-, -, -, h4⟩ := simple_contains leastVersion v
  exact (vset_contains_iff_mem _ _).1 (h4.trans ((vge_iff _ _).2 (least_le (parse_canonical h))))

theorem leastSet_not_bottomless : ¬ leastSet.Bottomless := by
  rintro ⟨i, hi, h⟩
  rw [show leastSet.extract = [.range ⟨some leastVersion, none, true, false⟩] from rfl, List.mem_singleton] at hi
  subst hi
  cases h

/-- The intersection of the set of a string and the set of `>=0.dev0`. -/
theorem intersection_least {lim lim' : Nat} {r : PyStr} {x : VSet} (hr : VSet.parse lim r = .ok x) :
    ∃ i, x.intersection lim' leastSet = .ok i ∧ i.Normal ∧ i.Canonical ∧ ¬ i.Bottomless ∧
      ∀ u v, Version.parse u = .ok v → (i.Mem v ↔ x.Mem v) := by
  obtain ⟨nx, cx⟩ := parsed_canonical hr
  obtain ⟨nd, cd⟩ := parsed_canonical (leastSet_parse 0)
  obtain ⟨i, i1, i2, i3⟩ := intersection_spec nx nd
  have ci : i.Canonical := intersection_ends (P := Version.Canonical) cx cd (i1 lim')
  refine ⟨i, i1 lim', i2, ci, fun hb => ?_, fun u v hv => ?_⟩
  · have := (cov_below ci (bot_lt_cutAt leastVersion false)).2 hb
    exact leastSet_not_bottomless ((cov_below cd (bot_lt_cutAt leastVersion false)).1 ((i3 _).1 this).2)
  · have hd := leastSet_mem hv
    rw [mem_iff_cov] at hd
    rw [mem_iff_cov, mem_iff_cov]
    exact (i3 _).trans ⟨fun h => h.1, fun h => ⟨h, hd⟩⟩

/-- C108. Some version is accepted iff the set meets the set of `>=0.dev0`. -/
theorem C108_satisfiable (lim : Nat) (r : PyStr) (s : Specifier) (x d : VSet) (hs : Specifier.parse r = .ok s) (hx : VSet.parse lim r = .ok x)
    (hd : VSet.parse lim ">=0.dev0".toList = .ok d) : x.intersects d = true ↔ Satisfiable s := by
  rw [leastSet_parse] at hd
  cases hd
  obtain ⟨nx, cx⟩ := parsed_canonical hx
  obtain ⟨nd, cd⟩ := parsed_canonical (leastSet_parse 0)
  rw [C67_intersects x leastSet nx nd cx cd]
  refine (or_iff_left fun h => leastSet_not_bottomless h.2).trans ?_
  refine exists_congr fun u => exists_congr fun v => ?_
  rw [parsed_mem hx hs v]
  exact ⟨fun h => ⟨h.1, h.2.1⟩, fun h => ⟨h.1, h.2, leastSet_mem h.1⟩⟩

/-- No version is `> 1` and `< 1`, or `< 0.dev0`; 1.post1 is `> 1` and `< 2`. -/
example : ((VSet.parse 5 ">1,<1".toList).bind fun x => (VSet.parse 5 ">=0.dev0".toList).bind fun d => .ok (x.intersects d)) = .ok false ∧
    ((VSet.parse 5 "<0.dev0".toList).bind fun x => (VSet.parse 5 ">=0.dev0".toList).bind fun d => .ok (x.intersects d)) = .ok false ∧
    ((VSet.parse 5 ">1,<2".toList).bind fun x => (VSet.parse 5 ">=0.dev0".toList).bind fun d => .ok (x.intersects d)) = .ok true := by decide +kernel

/-- C108. Every version is accepted iff the set includes the set of `>=0.dev0`. -/
theorem C108_all (lim : Nat) (r : PyStr) (s : Specifier) (x d : VSet) (hs : Specifier.parse r = .ok s) (hx : VSet.parse lim r = .ok x)
    (hd : VSet.parse lim ">=0.dev0".toList = .ok d) : x.includes d = true ↔ ∀ u v, Version.parse u = .ok v → s.accepts v = .ok true := by
  rw [leastSet_parse] at hd
  cases hd
  obtain ⟨nx, cx⟩ := parsed_canonical hx
  obtain ⟨nd, cd⟩ := parsed_canonical (leastSet_parse 0)
  rw [C67_includes x leastSet nx nd cx cd]
  refine (and_iff_left fun h => absurd h leastSet_not_bottomless).trans ?_
  refine forall_congr' fun u => forall_congr' fun v => forall_congr' fun hv => ?_
  rw [parsed_mem hx hs v]
  exact ⟨fun h => h (leastSet_mem hv), fun h _ => h⟩

/-- Every version is `< 1` or `>= 1`; not every version is `>= 0`. -/
example : ((VSet.parse 5 "<1||>=1".toList).bind fun x => (VSet.parse 5 ">=0.dev0".toList).bind fun d => .ok (x.includes d)) = .ok true ∧
    ((VSet.parse 5 ">=0".toList).bind fun x => (VSet.parse 5 ">=0.dev0".toList).bind fun d => .ok (x.includes d)) = .ok false := by decide +kernel

/-- C108. Every version that the first string accepts is accepted by the second iff the set of the second includes the
intersection of the set of the first and the set of `>=0.dev0`, which is always defined. -/
theorem C108_implies (lim lim' : Nat) (r q : PyStr) (s t : Specifier) (x y d : VSet) (hs : Specifier.parse r = .ok s)
    (ht : Specifier.parse q = .ok t) (hx : VSet.parse lim r = .ok x) (hy : VSet.parse lim q = .ok y)
    (hd : VSet.parse lim ">=0.dev0".toList = .ok d) :
    ∃ i, x.intersection lim' d = .ok i ∧ (y.includes i = true ↔ Implies s t) := by
  rw [leastSet_parse] at hd
  cases hd
  obtain ⟨ny, cy⟩ := parsed_canonical hy
  obtain ⟨i, i1, i2, i3, i4, i5⟩ := intersection_least (lim' := lim') hx
  refine ⟨i, i1, ?_⟩
  rw [C67_includes y i ny i2 cy i3]
  refine (and_iff_left fun h => absurd h i4).trans ?_
  refine forall_congr' fun u => forall_congr' fun v => forall_congr' fun hv => ?_
  rw [i5 u v hv, parsed_mem hx hs v, parsed_mem hy ht v]

/-- Every version that `<2` accepts is accepted by `>=0.dev0,<3`; the sets as such are not included. -/
example : ((VSet.parse 5 "<2".toList).bind fun x => (VSet.parse 5 ">=0.dev0,<3".toList).bind fun y => (VSet.parse 5 ">=0.dev0".toList).bind fun d =>
    (x.intersection 5 d).bind fun i => .ok (y.includes i, y.includes x)) = .ok (true, false) := by decide +kernel

/-- `<2` does not imply `<1`, `~=1.4` implies `^1.2`. -/
example : ((VSet.parse 5 "<2".toList).bind fun x => (VSet.parse 5 "<1".toList).bind fun y => (VSet.parse 5 ">=0.dev0".toList).bind fun d =>
    (x.intersection 5 d).bind fun i => .ok (y.includes i)) = .ok false ∧
    ((VSet.parse 5 "~=1.4".toList).bind fun x => (VSet.parse 5 "^1.2".toList).bind fun y => (VSet.parse 5 ">=0.dev0".toList).bind fun d =>
    (x.intersection 5 d).bind fun i => .ok (y.includes i)) = .ok true := by decide +kernel

/-- C108. Some version is accepted by both strings iff the set of the second meets that intersection. -/
theorem C108_compatible (lim lim' : Nat) (r q : PyStr) (s t : Specifier) (x y d : VSet) (hs : Specifier.parse r = .ok s)
    (ht : Specifier.parse q = .ok t) (hx : VSet.parse lim r = .ok x) (hy : VSet.parse lim q = .ok y)
    (hd : VSet.parse lim ">=0.dev0".toList = .ok d) :
    ∃ i, x.intersection lim' d = .ok i ∧ (y.intersects i = true ↔ Compatible s t) := by
  rw [leastSet_parse] at hd
  cases hd
  obtain ⟨ny, cy⟩ := parsed_canonical hy
  obtain ⟨i, i1, i2, i3, i4, i5⟩ := intersection_least (lim' := lim') hx
  refine ⟨i, i1, ?_⟩
  rw [C67_intersects y i ny i2 cy i3]
  refine (or_iff_left fun h => i4 h.2).trans ?_
  refine exists_congr fun u => exists_congr fun v => and_congr_right fun hv => ?_
  rw [i5 u v hv, parsed_mem hx hs v, parsed_mem hy ht v]
  exact And.comm

/-- `~=1.4` and `^1.2` are compatible; `<0.dev0` and `<1` are not, though their sets intersect. -/
example : ((VSet.parse 5 "~=1.4".toList).bind fun x => (VSet.parse 5 "^1.2".toList).bind fun y => (VSet.parse 5 ">=0.dev0".toList).bind fun d =>
    (x.intersection 5 d).bind fun i => .ok (y.intersects i)) = .ok true ∧
    ((VSet.parse 5 "<0.dev0".toList).bind fun x => (VSet.parse 5 "<1".toList).bind fun y => (VSet.parse 5 ">=0.dev0".toList).bind fun d =>
    (x.intersection 5 d).bind fun i => .ok (y.intersects i, y.intersects x)) = .ok (false, true) := by decide +kernel

/-- C108. Two strings accept the same versions iff the intersections are `==`; then, and only then, the specifiers of the
intersections are `==`. -/
theorem C108_same (lim lim' : Nat) (r q : PyStr) (s t : Specifier) (x y d : VSet) (hs : Specifier.parse r = .ok s)
    (ht : Specifier.parse q = .ok t) (hx : VSet.parse lim r = .ok x) (hy : VSet.parse lim q = .ok y)
    (hd : VSet.parse lim ">=0.dev0".toList = .ok d) :
    ∃ i j a b, x.intersection lim' d = .ok i ∧ y.intersection lim' d = .ok j ∧ (∀ n, Specifier.fromSet n i = .ok a) ∧
      (∀ n, Specifier.fromSet n j = .ok b) ∧
      (i.eq j = true ↔ ∀ u v, Version.parse u = .ok v → (s.accepts v = .ok true ↔ t.accepts v = .ok true)) ∧
      (a.eq b = true ↔ ∀ u v, Version.parse u = .ok v → (s.accepts v = .ok true ↔ t.accepts v = .ok true)) := by
  rw [leastSet_parse] at hd
  cases hd
  obtain ⟨i, i1, i2, i3, i4, i5⟩ := intersection_least (lim' := lim') hx
  obtain ⟨j, j1, j2, j3, j4, j5⟩ := intersection_least (lim' := lim') hy
  obtain ⟨a, a1, a2, -⟩ := C33_round_trip i i2
  obtain ⟨b, b1, b2, -⟩ := C33_round_trip j j2
  have key : i.eq j = true ↔ ∀ u v, Version.parse u = .ok v → (s.accepts v = .ok true ↔ t.accepts v = .ok true) := by
    rw [C67_eq i j i2 j2 i3 j3]
    refine (and_iff_left ⟨fun h => absurd h i4, fun h => absurd h j4⟩).trans ?_
    refine forall_congr' fun u => forall_congr' fun v => forall_congr' fun hv => ?_
    rw [i5 u v hv, j5 u v hv, parsed_mem hx hs v, parsed_mem hy ht v]
  refine ⟨i, j, a, b, i1, j1, a1, b1, key, ⟨fun h u v hv => ?_, fun h => ?_⟩⟩
  · have hQ : Alike (InUse fun _ => False) := inUse_alike fun _ _ h => h.elim
    have ab := hQ.accepts ((fromSet_basic i2 i3 (a1 0)).mono fun _ => Operator.Basic.inUse)
      ((fromSet_basic j2 j3 (b1 0)).mono fun _ => Operator.Basic.inUse) h v
    obtain ⟨p, p1, p2⟩ := a2 v
    obtain ⟨q, q1, q2⟩ := b2 v
    rw [p1, q1] at ab
    cases ab
    rw [← parsed_mem hx hs v, ← parsed_mem hy ht v, ← i5 u v hv, ← j5 u v hv, ← p2, q2]
  · obtain ⟨a', b', e1, e2, e3⟩ := C33_equal_sets i j i2 j2 (key.2 h)
    have ea := (a1 0).symm.trans (e1 0)
    have eb := (b1 0).symm.trans (e2 0)
    cases ea; cases eb
    exact e3

/-- `<2,>=0.dev0` and `<1||>=1,<2.0` accept the same versions, `<2` and `<=2` do not. -/
example : ((VSet.parse 5 "<2,>=0.dev0".toList).bind fun x => (VSet.parse 5 "<1||>=1,<2.0".toList).bind fun y => (VSet.parse 5 ">=0.dev0".toList).bind fun d =>
    (x.intersection 5 d).bind fun i => (y.intersection 5 d).bind fun j => .ok (i.eq j, x.eq y)) = .ok (true, false) ∧
    ((VSet.parse 5 "<2".toList).bind fun x => (VSet.parse 5 "<=2".toList).bind fun y => (VSet.parse 5 ">=0.dev0".toList).bind fun d =>
    (x.intersection 5 d).bind fun i => (y.intersection 5 d).bind fun j => .ok (i.eq j)) = .ok false := by decide +kernel

/-- C108. Exactly one version (up to `==`) is accepted iff the intersection is a single version. -/
theorem C108_pinned (lim lim' : Nat) (r : PyStr) (s : Specifier) (x d : VSet) (hs : Specifier.parse r = .ok s) (hx : VSet.parse lim r = .ok x)
    (hd : VSet.parse lim ">=0.dev0".toList = .ok d) :
    ∃ i, x.intersection lim' d = .ok i ∧
      ((∃ p, i = .item (.point p)) ↔ ∃ u v, Version.parse u = .ok v ∧ ∀ u' w, Version.parse u' = .ok w → (s.accepts w = .ok true ↔ w ==ₚ v)) := by
  rw [leastSet_parse] at hd
  cases hd
  obtain ⟨i, i1, i2, i3, i4, i5⟩ := intersection_least (lim' := lim') hx
  refine ⟨i, i1, ⟨?_, ?_⟩⟩
  · rintro ⟨p, rfl⟩
    have hp : p.Canonical := (i3 (.point p) (List.mem_singleton.2 rfl)).1 p rfl
    refine ⟨_, p, parse_short hp, fun u' w hw => ?_⟩
    rw [← parsed_mem hx hs w, ← i5 u' w hw]
    show p ==ₚ w ↔ w ==ₚ p
    rw [veq_iff, veq_iff]
    exact eq_comm
  · rintro ⟨u, v, hv, h⟩
    have e : i.eq (.item (.point v)) = true := by
      rw [C67_eq i (.item (.point v)) i2 trivial i3 ?_]
      · refine ⟨fun u' w hw => ?_, fun h => absurd h i4, ?_⟩
        · rw [i5 u' w hw, parsed_mem hx hs w, h u' w hw]
          show w ==ₚ v ↔ v ==ₚ w
          rw [veq_iff, veq_iff]
          exact eq_comm
        · rintro ⟨a, ha, ha'⟩
          cases List.mem_singleton.1 ha
          cases ha'
      · intro a ha
        cases List.mem_singleton.1 ha
        have hc := parse_canonical hv
        exact ⟨fun w hw => by cases hw; exact hc, fun w hw => by cases hw; exact hc⟩
    cases i with
    | empty => cases e
    | union l => cases e
    | item a =>
      cases a with
      | point p => exact ⟨p, rfl⟩
      | range a =>
        obtain ⟨lo, hi, il, ih⟩ := a
        replace e : (optEq lo (some v) && optEq hi (some v) && (il == true) && (ih == true)) = true := e
        simp only [Bool.and_eq_true] at e
        obtain ⟨⟨⟨e1, e2⟩, -⟩, -⟩ := e
        cases lo with
        | none => cases e1
        | some lo => cases hi with
          | none => cases e2
          | some hi =>
            have hl := i2.2.2 lo hi rfl rfl
            rw [vlt_iff, (veq_iff _ _).1 e1, (veq_iff _ _).1 e2] at hl
            exact absurd hl (lt_irrefl _)

/-- `>=1,<=1.0` accepts one version, `<=0.dev0` too; `<=1` accepts more. -/
example : ((VSet.parse 5 ">=1,<=1.0".toList).bind fun x => (VSet.parse 5 ">=0.dev0".toList).bind fun d => x.intersection 5 d) = .ok (.item (exPoint [1])) ∧
    ((VSet.parse 5 "<=0.dev0".toList).bind fun x => (VSet.parse 5 ">=0.dev0".toList).bind fun d => x.intersection 5 d) =
      .ok (.item (.point (exVersion [0] none none (some ⟨"dev".toList, 0⟩)))) ∧
    ((VSet.parse 5 "<=1".toList).bind fun x => (VSet.parse 5 ">=0.dev0".toList).bind fun d => x.intersection 5 d) =
      .ok (.item (.range ⟨some (exVersion [0] none none (some ⟨"dev".toList, 0⟩)), some (exVersion [1]), true, true⟩)) := by decide +kernel

end Verif
