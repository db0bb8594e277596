import Verif.Props.Shape
/-!
# C75: joining strings joins the sets
-/

namespace Verif
open Specifier

/-- The string without its whitespace. -/
private abbrev bare (s : PyStr) : PyStr := s.filter (fun c => !isSpace c)

theorem AllOf.join {s t : PyStr} {l m : List Operator} (hs : AllOf s l) (ht : AllOf t m) : AllOf (s ++ ',' :: t) (l ++ m) := by
  obtain ⟨a, as, rfl, h1⟩ := hs
  obtain ⟨b, bs, rfl, h2⟩ := ht
  refine ⟨a, as ++ b :: bs, by simp, ?_⟩
  have := List.rel_append h1 h2
  simpa using this

theorem pipes_append (a : PyStr) (l : List (Bool × PyStr)) (d : Bool) (b : PyStr) (m : List (Bool × PyStr)) :
    pipes a l ++ (if d then ['|', '|'] else ['|']) ++ pipes b m = pipes a (l ++ (d, b) :: m) := by
  induction l generalizing a with
  | nil => simp [pipes]
  | cons x l ih =>
    obtain ⟨e, c⟩ := x
    simp only [pipes, List.cons_append, ← ih, List.append_assoc]

theorem AnyOf.join {s t : PyStr} {l m : List (List Operator)} (hs : AnyOf s l) (ht : AnyOf t m) (d : Bool) :
    AnyOf (s ++ (if d then ['|', '|'] else ['|']) ++ t) (l ++ m) := by
  obtain ⟨a, as, rfl, h1⟩ := hs
  obtain ⟨b, bs, rfl, h2⟩ := ht
  refine ⟨a, as ++ (d, b) :: bs, pipes_append a as d b bs, ?_⟩
  have := List.rel_append h1 h2
  simpa using this

theorem AnyOf.single {s : PyStr} {l : List (List Operator)} (hs : AnyOf s l) (h : '|' ∉ s) : ∃ ops, l = [ops] ∧ AllOf s ops := by
  obtain ⟨a, as, rfl, h1⟩ := hs
  match as, h1, h with
  | [], .cons h1 .nil, _ => exact ⟨_, rfl, h1⟩
  | (d, b) :: as, _, h => exact absurd (by cases d <;> simp [pipes]) h

theorem AllOf.any {s : PyStr} {ops : List Operator} (h : AllOf s ops) : AnyOf s [ops] := ⟨s, [], rfl, .cons h .nil⟩

theorem LocalPart.Canonical.wf {p : LocalPart} (h : p.Canonical) : p.Wf := by
  cases p with
  | int n => trivial
  | str s => exact alnum_above h

theorem Version.Canonical.wf {v : Version} (h : v.Canonical) : v.Wf := ⟨h.valid, fun l hl p hp => (h.local_ l hl p hp).wf⟩

theorem VSet.Canonical.wf {s : VSet} (h : s.Canonical) : s.Wf :=
  (wf_iff s).2 fun i hi => ⟨fun v hv => ((h i hi).1 v hv).wf, fun v hv => ((h i hi).2 v hv).wf⟩

/-- C75. If two strings are specifiers, so are they with a pipe or two between them, and the whole accepts what one of them
accepts. -/
theorem C75_or (s t : PyStr) (x y : Specifier) (hs : Specifier.parse s = .ok x) (ht : Specifier.parse t = .ok y) :
    ∃ z, Specifier.parse (s ++ "|".toList ++ t) = .ok z ∧ Specifier.parse (s ++ "||".toList ++ t) = .ok z ∧
      ∀ v, z.accepts v = .ok true ↔ x.accepts v = .ok true ∨ y.accepts v = .ok true := by
  obtain ⟨l, hl, rfl⟩ := (Specifier.parse_ok_iff' s x).1 hs
  obtain ⟨m, hm, rfl⟩ := (Specifier.parse_ok_iff' t y).1 ht
  have h1 := hl.join hm false
  refine ⟨ofAny (l ++ m), (Specifier.parse_ok_iff' _ _).2 ⟨_, ?_, rfl⟩, (Specifier.parse_ok_iff' _ _).2 ⟨_, ?_, rfl⟩, fun v => ?_⟩
  · have e : ("|".toList).filter (fun c => !isSpace c) = ['|'] := by decide +kernel
    simp only [List.filter_append, e]; exact h1
  · have e : ("||".toList).filter (fun c => !isSpace c) = ['|', '|'] := by decide +kernel
    simp only [List.filter_append, e]; exact hl.join hm true
  · have key : ∀ {s : PyStr} {gs : List (List Operator)}, AnyOf s gs →
        ((ofAny gs).accepts v = .ok true ↔ ∃ g ∈ gs, ∀ op ∈ g, op.accepts v = .ok true) := by
      intro s gs h
      obtain ⟨b, b1, b2⟩ := ofAny_accepts h v
      rw [b1, ← b2]; simp
    rw [key h1, key hl, key hm]
    simp only [List.mem_append, or_and_right, exists_or]

example : Specifier.parse ("< 1".toList ++ "|".toList ++ "3, < 4".toList) =
    .ok (.any [.one ⟨.less, exVersion [1]⟩, .all [.one ⟨.equal, exVersion [3]⟩, .one ⟨.less, exVersion [4]⟩]]) := by rfl

/-- C75. If two strings without pipes are specifiers, so are they with a comma between them, and the whole accepts what both
accept. -/
theorem C75_and (s t : PyStr) (ps : '|' ∉ s) (pt : '|' ∉ t) (x y : Specifier) (hs : Specifier.parse s = .ok x) (ht : Specifier.parse t = .ok y) :
    ∃ z, Specifier.parse (s ++ ",".toList ++ t) = .ok z ∧ ∀ v, z.accepts v = .ok true ↔ x.accepts v = .ok true ∧ y.accepts v = .ok true := by
  obtain ⟨l, hl, rfl⟩ := (Specifier.parse_ok_iff' s x).1 hs
  obtain ⟨m, hm, rfl⟩ := (Specifier.parse_ok_iff' t y).1 ht
  obtain ⟨l, rfl, hl'⟩ := hl.single (fun h => ps (List.mem_filter.1 h).1)
  obtain ⟨m, rfl, hm'⟩ := hm.single (fun h => pt (List.mem_filter.1 h).1)
  clear hl hm
  refine ⟨ofAny [l ++ m], (Specifier.parse_ok_iff' _ _).2 ⟨_, ?_, rfl⟩, fun v => ?_⟩
  · have e : (",".toList).filter (fun c => !isSpace c) = [','] := by decide +kernel
    simpa only [List.filter_append, e, List.append_assoc, List.singleton_append] using (hl'.join hm').any
  · have key : ∀ {s : PyStr} {g : List Operator}, AllOf s g → ((ofAny [g]).accepts v = .ok true ↔ ∀ op ∈ g, op.accepts v = .ok true) := by
      intro s gs h
      obtain ⟨b, b1, b2⟩ := ofAny_accepts h.any v
      rw [b1, Except.ok.injEq, b2]; simp
    rw [key (hl'.join hm'), key hl', key hm']
    simp only [List.mem_append, or_imp, forall_and]

example : Specifier.parse (">= 1".toList ++ ",".toList ++ "< 4".toList) =
    .ok (.all [.one ⟨.greaterOrEqual, exVersion [1]⟩, .one ⟨.less, exVersion [4]⟩]) := by rfl

/-- Sets of strings that contain the same versions are equal. -/
theorem parsed_eq {a b : VSet} (ha : a.Normal) (hb : b.Normal) (ca : a.Canonical) (cb : b.Canonical) (h : ∀ v, a.Mem v ↔ b.Mem v) : a.eq b = true :=
  (C28_eq_iff_same_versions a b ha hb ca.wf cb.wf).2 fun v _ => h v

theorem parsed_mem {lim : Nat} {s : PyStr} {x : VSet} {p : Specifier} (h : VSet.parse lim s = .ok x) (hp : Specifier.parse s = .ok p) (v : Version) :
    x.Mem v ↔ p.accepts v = .ok true := by
  obtain ⟨-, t, h1, h2⟩ := C53_set lim s x h
  rw [hp] at h1
  cases h1
  obtain ⟨b, b1, b2⟩ := h2 v
  rw [b1, ← b2]; simp

/-- C75. When `parse_version_set` returns sets for two strings and for both joined by a pipe, and the sets have a union, then
the set of the whole is equal to the union. -/
theorem C75_or_set (lim lim' : Nat) (s t : PyStr) (x y z u : VSet) (hs : VSet.parse lim s = .ok x) (ht : VSet.parse lim t = .ok y)
    (hz : VSet.parse lim (s ++ "|".toList ++ t) = .ok z ∨ VSet.parse lim (s ++ "||".toList ++ t) = .ok z) (hu : x.unionWith lim' y = .ok u) :
    z.eq u = true := by
  obtain ⟨nx, p, hp, -⟩ := C53_set lim s x hs
  obtain ⟨ny, q, hq, -⟩ := C53_set lim t y ht
  obtain ⟨r, r1, r2, r3⟩ := C75_or s t p q hp hq
  have ez : ∀ v, z.Mem v ↔ r.accepts v = .ok true := fun v => by
    rcases hz with hz | hz
    · exact parsed_mem hz r1 v
    · exact parsed_mem hz r2 v
  have cz : z.Normal ∧ z.Canonical := by
    rcases hz with hz | hz <;> exact parsed_canonical hz
  refine parsed_eq cz.1 (unionWith_ok nx ny hu).1 cz.2 (unionWith_ends (parsed_canonical hs).2 (parsed_canonical ht).2 hu) fun v => ?_
  rw [ez, r3, ← parsed_mem hs hp, ← parsed_mem ht hq, ← C21_union_exact x y u nx ny lim' hu v, vset_contains_iff_mem]

example : VSet.parse 5 ("< 1".toList ++ "|".toList ++ ">= 2".toList) = .ok (.union [exRange none (some [1]) false, exRange (some [2]) none]) ∧
    (VSet.item (exRange none (some [1]) false)).unionWith 7 (.item (exRange (some [2]) none)) =
      .ok (.union [exRange none (some [1]) false, exRange (some [2]) none]) := by decide +kernel

theorem reduceAll_returns {lim : Nat} {l : List Operator} (hv : ∀ o ∈ l, (Specifier.one o).Valid) : ∀ {acc : VSet}, acc.Normal →
    ((∃ x, reduceAll lim acc (l.map .one) = .ok x) ↔ ∀ o ∈ l, ∃ y, o.toSet lim = .ok y) := by
  induction l with
  | nil => intro acc _; simp [reduceAll]
  | cons o l ih =>
    intro acc ha
    simp only [List.map_cons, reduceAll, toSet, List.forall_mem_cons]
    cases hy : o.toSet lim with
    | error e => simp [bind, Except.bind]
    | ok y =>
      obtain ⟨ny, -⟩ := toSet_means (hv o (by simp)) lim y (by rw [toSet, hy])
      obtain ⟨z, z1, z2, -⟩ := intersection_spec ha ny
      simp only [bind, Except.bind, z1]
      rw [ih (fun o ho => hv o (by simp [ho])) z2]
      simp

theorem ofAll_returns {lim : Nat} {s : PyStr} {l : List Operator} (h : AllOf s l) :
    (∃ x, (ofAll l).toSet lim = .ok x) ↔ ∀ o ∈ l, ∃ y, o.toSet lim = .ok y := by
  obtain ⟨a, as, -, h⟩ := h
  have hv : ∀ o ∈ l, (Specifier.one o).Valid := fun op ho => by
    obtain ⟨w, -, hw⟩ := forall₂_right h ho
    exact (single_valid hw).1
  match l, h, hv with
  | [o], _, _ => simp [ofAll, toSet]
  | o :: o' :: l, _, hv =>
    simp only [ofAll, List.map_cons, toSet, List.forall_mem_cons]
    cases hy : o.toSet lim with
    | error e => simp [bind, Except.bind]
    | ok y =>
      obtain ⟨ny, -⟩ := toSet_means (hv o (by simp)) lim y (by rw [toSet, hy])
      have := reduceAll_returns (lim := lim) (l := o' :: l) (fun o ho => hv o (by simp [ho])) ny
      simp only [List.map_cons, List.forall_mem_cons] at this
      simp only [bind, Except.bind, this]
      simp

/-- C75. On strings without pipes `parse_version_set` returns a set iff the string is a specifier none of whose operators is
one of those without a set (C16). -/
theorem C75_returns (lim : Nat) (s : PyStr) (ps : '|' ∉ s) :
    (∃ x, VSet.parse lim s = .ok x) ↔ ∃ ops, AllOf (s.filter (fun c => !isSpace c)) ops ∧ ∀ o ∈ ops, ¬ o.Broken := by
  have hb : ∀ {t : PyStr} {ops : List Operator}, AllOf t ops → ((∀ o ∈ ops, ∃ y, o.toSet lim = .ok y) ↔ ∀ o ∈ ops, ¬ o.Broken) := by
    rintro t ops ⟨a, l, -, h⟩
    refine forall₂_congr fun o ho => ?_
    obtain ⟨w, -, hw⟩ := forall₂_right h ho
    obtain ⟨h1, h2⟩ := single_valid hw
    have hv : o.Valid := ⟨h2.valid, h2.release, by cases h1 with | one _ ht => exact ht⟩
    have := C16_failure o hv lim
    constructor
    · rintro ⟨y, hy⟩ hb
      rw [this.2 hb] at hy
      cases hy
    · intro hb
      obtain ⟨y, hy⟩ := this.1 hb
      exact ⟨y, hy lim⟩
  unfold VSet.parse
  constructor
  · rintro ⟨x, hx⟩
    cases hp : Specifier.parse s with
    | error e => rw [hp] at hx; cases hx
    | ok p =>
      rw [hp] at hx
      obtain ⟨gs, hg, rfl⟩ := (Specifier.parse_ok_iff' s p).1 hp
      obtain ⟨l, rfl, hl⟩ := hg.single (fun h => ps (List.mem_filter.1 h).1)
      exact ⟨l, hl, (hb hl).1 ((ofAll_returns hl).1 ⟨x, hx⟩)⟩
  · rintro ⟨l, hl, h⟩
    rw [(Specifier.parse_ok_iff' s _).2 ⟨[l], hl.any, rfl⟩]
    exact (ofAll_returns hl).2 ((hb hl).2 h)

example : VSet.parse 5 "~1.0, < 9".toList = .ok (.item (exRange (some [1, 0]) (some [1, 1]))) ∧
    VSet.parse 5 "~1.0.post1.dev0, < 9".toList = .error .valueError := by decide +kernel

/-- C75. When `parse_version_set` returns sets for two strings without pipes, it does so for both joined by a comma, and the
set of the whole is equal to the intersection. -/
theorem C75_and_set (lim lim' : Nat) (s t : PyStr) (ps : '|' ∉ s) (pt : '|' ∉ t) (x y : VSet) (hs : VSet.parse lim s = .ok x)
    (ht : VSet.parse lim t = .ok y) :
    ∃ z i, VSet.parse lim (s ++ ",".toList ++ t) = .ok z ∧ x.intersection lim' y = .ok i ∧ z.eq i = true := by
  obtain ⟨nx, p, hp, -⟩ := C53_set lim s x hs
  obtain ⟨ny, q, hq, -⟩ := C53_set lim t y ht
  obtain ⟨r, r1, r2⟩ := C75_and s t ps pt p q hp hq
  obtain ⟨i, i1, i2, i3⟩ := intersection_spec nx ny
  obtain ⟨l, l1, l2⟩ := (C75_returns lim s ps).1 ⟨x, hs⟩
  obtain ⟨m, m1, m2⟩ := (C75_returns lim t pt).1 ⟨y, ht⟩
  have pc : '|' ∉ s ++ ",".toList ++ t := by simp [ps, pt]
  obtain ⟨z, hz⟩ := (C75_returns lim _ pc).2 ⟨l ++ m, by
    have e : (",".toList).filter (fun c => !isSpace c) = [','] := by decide +kernel
    simpa only [List.filter_append, e, List.append_assoc, List.singleton_append] using l1.join m1, by
    simp only [List.mem_append]; rintro o (h | h); exacts [l2 o h, m2 o h]⟩
  obtain ⟨nz, cz⟩ := parsed_canonical hz
  refine ⟨z, i, hz, i1 lim', parsed_eq nz i2 cz (intersection_ends (parsed_canonical hs).2 (parsed_canonical ht).2 (i1 lim')) fun v => ?_⟩
  rw [parsed_mem hz r1, r2, ← parsed_mem hs hp, ← parsed_mem ht hq]
  simp only [mem_iff_cov]
  exact (i3 _).symm

example : VSet.parse 5 (">= 1".toList ++ ",".toList ++ "< 4".toList) = .ok (.item (exRange (some [1]) (some [4]))) ∧
    (VSet.item (exRange (some [1]) none)).intersection 7 (.item (exRange none (some [4]) false)) = .ok (.item (exRange (some [1]) (some [4]))) := by
  decide +kernel

/-- C75. The order of the parts does not matter, -/
theorem C75_and_comm (lim : Nat) (s t : PyStr) (ps : '|' ∉ s) (pt : '|' ∉ t) (x y : VSet) (hs : VSet.parse lim s = .ok x)
    (ht : VSet.parse lim t = .ok y) :
    ∃ z z', VSet.parse lim (s ++ ",".toList ++ t) = .ok z ∧ VSet.parse lim (t ++ ",".toList ++ s) = .ok z' ∧ z.eq z' = true := by
  obtain ⟨z, i, z1, -, -⟩ := C75_and_set lim 0 s t ps pt x y hs ht
  obtain ⟨z', i', z1', -, -⟩ := C75_and_set lim 0 t s pt ps y x ht hs
  obtain ⟨-, p, hp, -⟩ := C53_set lim s x hs
  obtain ⟨-, q, hq, -⟩ := C53_set lim t y ht
  obtain ⟨r, r1, r2⟩ := C75_and s t ps pt p q hp hq
  obtain ⟨r', r1', r2'⟩ := C75_and t s pt ps q p hq hp
  refine ⟨z, z', z1, z1', parsed_eq (parsed_canonical z1).1 (parsed_canonical z1').1 (parsed_canonical z1).2 (parsed_canonical z1').2 fun v => ?_⟩
  rw [parsed_mem z1 r1, parsed_mem z1' r1', r2, r2', and_comm]

example : VSet.parse 5 (">= 1".toList ++ ",".toList ++ "> 1.0".toList) = .ok (.item (exRange (some [1, 0]) none false)) ∧
    VSet.parse 5 ("> 1.0".toList ++ ",".toList ++ ">= 1".toList) = .ok (.item (exRange (some [1, 0]) none false)) := by decide +kernel

/-- C75. except that around a pipe one order may recurse without end (C22). -/
theorem C75_or_comm (lim : Nat) (s t : PyStr) (x y z z' : VSet) (hs : VSet.parse lim s = .ok x) (ht : VSet.parse lim t = .ok y)
    (hz : VSet.parse lim (s ++ "|".toList ++ t) = .ok z) (hz' : VSet.parse lim (t ++ "|".toList ++ s) = .ok z') : z.eq z' = true := by
  obtain ⟨-, p, hp, -⟩ := C53_set lim s x hs
  obtain ⟨-, q, hq, -⟩ := C53_set lim t y ht
  obtain ⟨r, r1, -, r2⟩ := C75_or s t p q hp hq
  obtain ⟨r', r1', -, r2'⟩ := C75_or t s q p hq hp
  refine parsed_eq (parsed_canonical hz).1 (parsed_canonical hz').1 (parsed_canonical hz).2 (parsed_canonical hz').2 fun v => ?_
  rw [parsed_mem hz r1, parsed_mem hz' r1', r2, r2', or_comm]

example : VSet.parse 5 ("< 1".toList ++ "|".toList ++ ">= 2".toList) = VSet.parse 5 (">= 2".toList ++ "|".toList ++ "< 1".toList) ∧
    VSet.parse 5 ("== 1".toList ++ "|".toList ++ "> 1".toList) ≠ VSet.parse 5 ("> 1".toList ++ "|".toList ++ "== 1".toList) := by decide +kernel

/-- C75. Implication between requirements: `parse_version_set(s).includes(parse_version_set(t))` iff every version that a string
can denote and that the specifier `t` accepts is accepted by the specifier `s`, and the set of `s` has no lower end if that
of `t` has none. -/
theorem C75_implication (lim : Nat) (s t : PyStr) (x y : VSet) (p q : Specifier) (hs : VSet.parse lim s = .ok x)
    (ht : VSet.parse lim t = .ok y) (hp : Specifier.parse s = .ok p) (hq : Specifier.parse t = .ok q) :
    x.includes y = true ↔ (∀ u v, Version.parse u = .ok v → q.accepts v = .ok true → p.accepts v = .ok true) ∧ (y.Bottomless → x.Bottomless) := by
  rw [C67_includes x y (parsed_canonical hs).1 (parsed_canonical ht).1 (parsed_canonical hs).2 (parsed_canonical ht).2]
  simp only [parsed_mem hs hp, parsed_mem ht hq]

/-- `>= 1.2` and `< 2, != 1.5` joined by a comma; their intersection. -/
example : ((VSet.parse 5 ">= 1.2".toList).bind fun x => (VSet.parse 5 "< 2, != 1.5".toList).bind fun y =>
      (x.intersection 5 y).bind fun i => (VSet.parse 5 (">= 1.2".toList ++ ",".toList ++ "< 2, != 1.5".toList)).bind fun z =>
        .ok (z.eq i, z.contains (exVersion [1, 4]), z.contains (exVersion [1, 5]))) = .ok (true, true, false) := by decide +kernel

/-- `^1.2` and `3.x` joined by a pipe; their union. -/
example : ((VSet.parse 5 "^1.2".toList).bind fun x => (VSet.parse 5 "3.x".toList).bind fun y =>
      (x.unionWith 5 y).bind fun i => (VSet.parse 5 ("^1.2".toList ++ "|".toList ++ "3.x".toList)).bind fun z =>
        .ok (z.eq i, z.contains (exVersion [1, 4]), z.contains (exVersion [3, 5]), z.contains (exVersion [2, 5]))) = .ok (true, true, true, false) := by
  decide +kernel

/-- `== 1 | > 1` recurses without end, `> 1 | == 1` does not. -/
example : VSet.parse 50 ("== 1".toList ++ "|".toList ++ "> 1".toList) = .error .recursionError ∧
    ((VSet.parse 5 ("> 1".toList ++ "|".toList ++ "== 1".toList)).bind fun z => .ok (z.contains (exVersion [1]))) = .ok true := by decide +kernel

/-- `~= 1.4.2` implies `~= 1.2`. -/
example : ((VSet.parse 5 "~= 1.2".toList).bind fun x => (VSet.parse 5 "~= 1.4.2".toList).bind fun y => .ok (x.includes y, y.includes x)) =
    .ok (true, false) := by decide +kernel

end Verif
