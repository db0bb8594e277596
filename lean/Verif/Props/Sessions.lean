import Verif.Proofs.Sessions
/-!
# Programs that use the cached functions (C96)
-/

namespace Verif
open Specifier Statement

/-- Results that a program cannot tell apart by `==`, `accepts` and `in`. -/
def SameResult : Result → Result → Prop
  | .error e, .error f => e = f
  | .ok (.version a), .ok (.version b) => a = b
  | .ok (.specifier s), .ok (.specifier t) => s.eq t = true ∧ ∀ v : Version, s.accepts v = t.accepts v
  | .ok (.set x), .ok (.set y) => x.eq y = true ∧ ∀ v : Version, x.contains v = y.contains v
  | .ok (.bool a), .ok (.bool b) => a = b
  | _, _ => False

/-- The operators that a program makes, run without caches: those in its specifiers, and in the strings that it reads sets
from. -/
def Makes (lim : Nat) (program : List Statement) (o : Operator) : Prop :=
  (∃ s : Specifier, .ok (.specifier s) ∈ reference lim program ∧ s.Uses o) ∨
  (∃ (string : PyStr) (s : Specifier), .parseVersionSet string ∈ program ∧ Specifier.parse string = .ok s ∧ s.Uses o)

/-! ### relations between the two runs -/

/-- The same exception, or related values. -/
def Both {α β : Type} (R : α → β → Prop) : Except PyErr α → Except PyErr β → Prop
  | .error e, .error f => e = f
  | .ok x, .ok y => R x y
  | _, _ => False

theorem Both.bind {α β γ δ : Type} {R : α → β → Prop} {T : γ → δ → Prop} {a : Except PyErr α} {b : Except PyErr β}
    (h : Both R a b) {f : α → Except PyErr γ} {g : β → Except PyErr δ} (hfg : ∀ x y, R x y → Both T (f x) (g y)) :
    Both T (a >>= f) (b >>= g) := by
  cases a <;> cases b <;> first | exact h | exact h.elim | exact hfg _ _ h

theorem Both.mono {α β : Type} {R T : α → β → Prop} {a : Except PyErr α} {b : Except PyErr β}
    (h : Both R a b) (hRT : ∀ x y, R x y → T x y) : Both T a b := by
  cases a <;> cases b <;> first | exact h | exact h.elim | exact hRT _ _ h

theorem Both.mapM {α β : Type} {R : α → β → Prop} {f : Nat → Except PyErr α} {g : Nat → Except PyErr β}
    (h : ∀ i, Both R (f i) (g i)) (l : List Nat) : Both (List.Forall₂ R) (l.mapM f) (l.mapM g) := by
  induction l with
  | nil => exact .nil
  | cons i l ih =>
    rw [List.mapM_cons, List.mapM_cons]
    exact (h i).bind fun x y hxy => ih.bind fun xs ys hs => .cons hxy hs

theorem forall₂_getElem? {α β : Type} {R : α → β → Prop} {l : List α} {m : List β} (h : List.Forall₂ R l m) (i : Nat) :
    (l[i]? = none ∧ m[i]? = none) ∨ ∃ a b, l[i]? = some a ∧ m[i]? = some b ∧ R a b := by
  induction h generalizing i with
  | nil => exact .inl ⟨rfl, rfl⟩
  | cons hab _ ih => cases i with
    | zero => exact .inr ⟨_, _, rfl, rfl, hab⟩
    | succ i => simpa using ih i

def RelSpecifier (Q : Operator → Prop) (s t : Specifier) : Prop := s.eq t = true ∧ s.Over Q ∧ t.Over Q

def RelSet (x y : VSet) : Prop := SameSet (.ok x) (.ok y) ∧ x.CanonicalEnds ∧ y.CanonicalEnds

def RelOutcome (Q : Operator → Prop) : Outcome → Outcome → Prop
  | .version a, .version b => a = b ∧ a.Canonical
  | .specifier s, .specifier t => RelSpecifier Q s t
  | .set x, .set y => RelSet x y
  | .bool a, .bool b => a = b
  | _, _ => False

abbrev Related (Q : Operator → Prop) : Result → Result → Prop := Both (RelOutcome Q)

section
variable {Q : Operator → Prop} {env env' : List Result} (h : List.Forall₂ (Related Q) env env')
include h

theorem getVersion_rel (i : Nat) : Both (fun a b => a = b ∧ a.Canonical) (getVersion env i) (getVersion env' i) := by
  unfold getVersion
  rcases forall₂_getElem? h i with ⟨h1, h2⟩ | ⟨a, b, h1, h2, hab⟩ <;> rw [h1, h2]
  · rfl
  · rcases a with e | a <;> rcases b with f | b <;> try first | exact hab.elim | rfl
    cases a <;> cases b <;> try first | exact hab.elim | rfl
    exact hab

theorem getSpecifier_rel (i : Nat) : Both (RelSpecifier Q) (getSpecifier env i) (getSpecifier env' i) := by
  unfold getSpecifier
  rcases forall₂_getElem? h i with ⟨h1, h2⟩ | ⟨a, b, h1, h2, hab⟩ <;> rw [h1, h2]
  · rfl
  · rcases a with e | a <;> rcases b with f | b <;> try first | exact hab.elim | rfl
    cases a <;> cases b <;> try first | exact hab.elim | rfl
    exact hab

theorem getSet_rel (i : Nat) : Both RelSet (getSet env i) (getSet env' i) := by
  unfold getSet
  rcases forall₂_getElem? h i with ⟨h1, h2⟩ | ⟨a, b, h1, h2, hab⟩ <;> rw [h1, h2]
  · rfl
  · rcases a with e | a <;> rcases b with f | b <;> try first | exact hab.elim | rfl
    cases a <;> cases b <;> try first | exact hab.elim | rfl
    exact hab
end

theorem both_set {a b : Except PyErr VSet} (h : SameSet a b) (ha : ∀ x, a = .ok x → x.CanonicalEnds)
    (hb : ∀ x, b = .ok x → x.CanonicalEnds) : Both RelSet a b := by
  cases a <;> cases b <;> first | exact h | exact h.elim | exact ⟨h, ha _ rfl, hb _ rfl⟩

/-! ### the caches of a process -/

/-- Caches that hold what they should, in a program with operators `Q`. -/
structure Process.Ok (lim : Nat) (Q : Operator → Prop) (p : Process) : Prop where
  versions : ∀ e ∈ p.versions, Version.parse e.1 = .ok e.2
  specifiers : ∀ e ∈ p.specifiers, Specifier.parse e.1 = .ok e.2
  sets : CachesOk lim Q p.sets
  parsedEnds : ∀ e ∈ p.sets.parsed, e.2.CanonicalEnds
  convertedEnds : ∀ e ∈ p.sets.converted, e.2.CanonicalEnds
  back : FromOk p.back
  backBasic : ∀ e ∈ p.back, e.2.Over Operator.Basic

theorem parseVersionSet_ends (hash : PyStr → Int) (H : Hasher) (lim : Nat) (s : PyStr)
    (hs : ∀ t, Specifier.parse s = .ok t → t.Canonical) (c : SetCaches) (h1 : ∀ e ∈ c.parsed, e.2.CanonicalEnds)
    (h2 : ∀ e ∈ c.converted, e.2.CanonicalEnds) :
    let r := Verif.parseVersionSet hash H lim s c
    (∀ x, r.1 = .ok x → x.CanonicalEnds) ∧ (∀ e ∈ r.2.parsed, e.2.CanonicalEnds) ∧
      ∀ e ∈ r.2.converted, e.2.CanonicalEnds := by
  dsimp only
  unfold Verif.parseVersionSet
  split
  · next e he => exact ⟨by rintro x ⟨⟩; exact h1 e (List.mem_of_find?_eq_some he), h1, h2⟩
  · cases hp : Specifier.parse s with
    | error e => exact ⟨(by intro x hx; cases hx), h1, h2⟩
    | ok t =>
      obtain ⟨g1, g2⟩ := toSetCached_ends H lim (hs t hp) c.converted h2
      dsimp only [convertCall]
      generalize t.toSetCached H lim c.converted = r at g1 g2
      obtain ⟨q, c'⟩ := r
      cases q with
      | error e => exact ⟨(by intro x hx; cases hx), h1, g2⟩
      | ok x =>
        refine ⟨g1, fun e he => ?_, g2⟩
        rcases List.mem_cons.1 he with rfl | he
        · exact g1 x rfl
        · exact h1 e he

/-- What the statement adds to the operators of the program. -/
structure Statement.Adds (lim : Nat) (env : List Result) (st : Statement) (M : Operator → Prop) : Prop where
  made : ∀ s, (st.run (.plain lim) lim env ()).1 = .ok (.specifier s) → ∀ o, s.Uses o → M o
  read : ∀ string s, st = .parseVersionSet string → Specifier.parse string = .ok s → ∀ o, s.Uses o → M o

/-- Operators a string can denote, that are simple or in `M`. -/
def InUse (M : Operator → Prop) (o : Operator) : Prop := (o.Valid ∧ o.version.Canonical) ∧ (o.type.Simple ∨ M o)

theorem Operator.Basic.inUse {M : Operator → Prop} {o : Operator} (h : o.Basic) : InUse M o := by
  refine ⟨⟨⟨h.2.valid, h.2.release, fun ht => ?_⟩, h.2⟩, .inl h.1⟩
  have := h.1
  simp [ht, OpType.Simple] at this

theorem simple_reading {t : OpType} (h : t.Simple) (a b : Version) : t.SameReading a b := by
  rcases h with rfl | rfl | rfl | rfl | rfl | rfl | rfl <;> trivial

theorem inUse_alike {M : Operator → Prop}
    (hM : ∀ o p, M o → M p → o.eq p = true → o.type.SameReading o.version p.version) : Alike (InUse M) := by
  refine ⟨fun o ho => ho.1.1, fun o p ho hp he => ?_⟩
  rcases ho.2 with h | ho
  · exact simple_reading h _ _
  rcases hp.2 with h | hp
  · refine simple_reading ?_ _ _
    simp only [Operator.eq, Bool.and_eq_true, Specifier.opType_eq_iff] at he
    obtain ⟨he, -⟩ := he
    generalize o.type = t at *
    rcases h with h | h | h | h | h | h | h <;> rw [h] at he <;> cases t <;> simp [OpType.Simple] at he ⊢
  · exact hM o p ho hp he

theorem parse_over {M : Operator → Prop} {string : PyStr} {s : Specifier} (h : Specifier.parse string = .ok s)
    (hM : ∀ o, s.Uses o → M o) : s.Over (InUse M) :=
  (C52_valid string s h).over fun o ho => ⟨parse_uses h ho, .inr (hM o ho)⟩

theorem fromSet_rel (H : Hasher) (lim : Nat) {M : Operator → Prop} {x y : VSet} (h : RelSet x y) {c : Cache VSet Specifier}
    (h1 : FromOk c) (h2 : ∀ e ∈ c, e.2.Over Operator.Basic) :
    Both (RelSpecifier (InUse M)) (fromSetCached H lim x c).1 (fromSet lim y) ∧
      FromOk (fromSetCached H lim x c).2 ∧ ∀ e ∈ (fromSetCached H lim x c).2, e.2.Over Operator.Basic := by
  obtain ⟨hxy, ex, ey⟩ := h
  obtain ⟨⟨t, t1, ⟨u, u1, u2⟩, -⟩, t3⟩ := fromSetCached_converts H lim hxy.1 c h1
  obtain ⟨b1, b2⟩ := fromSetCached_basic H lim hxy.1 ex c h2
  obtain ⟨u', w, p1, q1, pq⟩ := fromSet_congr hxy.1 hxy.2.1 hxy.2.2
  obtain rfl : u = u' := Except.ok.inj ((u1 lim).symm.trans (p1 lim))
  refine ⟨?_, t3, b2⟩
  rw [t1, q1]
  exact ⟨eq_trans _ _ _ u2 pq, (b1 t t1).mono fun _ => Operator.Basic.inUse,
    (fromSet_basic hxy.2.1 ey (q1 lim)).mono fun _ => Operator.Basic.inUse⟩

theorem toSet_rel (H : Hasher) (lim : Nat) {Q : Operator → Prop} (hQ : Alike Q) (hc : ∀ o, Q o → o.version.Canonical)
    {s t : Specifier} (h : RelSpecifier Q s t) {c : Cache Specifier VSet} (h1 : CacheOk (lim + 2) Q c)
    (h2 : ∀ e ∈ c, e.2.CanonicalEnds) :
    Both RelSet (toSetCached H (lim + 2) s c).1 (toSet (lim + 2) t) ∧ CacheOk (lim + 2) Q (toSetCached H (lim + 2) s c).2 ∧
      ∀ e ∈ (toSetCached H (lim + 2) s c).2, e.2.CanonicalEnds := by
  obtain ⟨he, hs, ht⟩ := h
  obtain ⟨g1, g2⟩ := toSetCached_computes H (hQ.coherent _) hs c h1
  obtain ⟨e1, e2⟩ := toSetCached_ends H (lim + 2) (hs.canonical hc) c h2
  exact ⟨both_set (g1.trans (eq_same (hQ.coherent _) hs ht he)) e1 (Specifier.toSet_ends (ht.canonical hc)), g2, e2⟩

theorem both_map {α β : Type} {R : α → β → Prop} {T : Outcome → Outcome → Prop} {f : α → Outcome} {g : β → Outcome}
    (hT : ∀ x y, R x y → T (f x) (g y)) {a : Except PyErr α} {b : Except PyErr β} (h : Both R a b) :
    Both T (a.map f) (b.map g) := by
  cases a <;> cases b <;> first | exact h | exact h.elim | exact hT _ _ h

theorem eqList_of {Q : Operator → Prop} {l m : List Specifier} (h : List.Forall₂ (RelSpecifier Q) l m) :
    eqList l m = true ∧ (∀ t ∈ l, t.Over Q) ∧ ∀ t ∈ m, t.Over Q := by
  induction h with
  | nil => exact ⟨rfl, by simp, by simp⟩
  | cons h _ ih => exact ⟨by simp [eqList, h.1, ih.1], by simpa using ⟨h.2.1, ih.2.1⟩, by simpa using ⟨h.2.2, ih.2.2⟩⟩

theorem anyOf_rel {Q : Operator → Prop} {l m : List Specifier} (h : List.Forall₂ (RelSpecifier Q) l m) :
    Both (RelSpecifier Q) (anyOf l) (anyOf m) := by
  obtain ⟨h1, h2, h3⟩ := eqList_of h
  obtain ⟨s, hs⟩ : ∃ s, anyOf l = .ok s := by
    match l with
    | [] => exact ⟨_, rfl⟩
    | [_] => exact ⟨_, rfl⟩
    | _ :: _ :: _ => exact ⟨_, rfl⟩
  obtain ⟨t, ht, he⟩ := anyOf_eq h1 hs
  rw [hs, ht]
  exact ⟨he, anyOf_over h2 hs, anyOf_over h3 ht⟩

theorem allOf_rel {Q : Operator → Prop} {l m : List Specifier} (h : List.Forall₂ (RelSpecifier Q) l m) :
    Both (RelSpecifier Q) (allOf l) (allOf m) := by
  obtain ⟨h1, h2, h3⟩ := eqList_of h
  obtain ⟨s, hs⟩ : ∃ s, allOf l = .ok s := by
    match l with
    | [] => exact ⟨_, rfl⟩
    | [_] => exact ⟨_, rfl⟩
    | _ :: _ :: _ => exact ⟨_, rfl⟩
  obtain ⟨t, ht, he⟩ := allOf_eq h1 hs
  rw [hs, ht]
  exact ⟨he, allOf_over h2 hs, allOf_over h3 ht⟩

theorem create_inUse {M : Operator → Prop} {t : OpType} {v : Version} (hv : v.Canonical) {o : Operator}
    (h : Operator.create t v = .ok o) (hM : M o) : InUse M o := by
  unfold Operator.create at h
  split at h
  · cases h
  · next hn =>
    cases h
    refine ⟨⟨⟨hv.valid, hv.release, fun ht => ?_⟩, hv⟩, .inr hM⟩
    have h1 : v.lastIndex ≠ 0 := fun h => hn ⟨ht, h⟩
    have h2 : 0 < v.release.precision := (precision_pos_iff _).2 hv.valid.release
    simp only [Version.lastIndex, Release.lastIndex] at h1
    show 2 ≤ v.release.precision
    omega

/-- One statement, with caches and without. -/
theorem run_rel (hash : PyStr → Int) (H : Hasher) (lim : Nat) {M : Operator → Prop}
    (hM : ∀ o p, M o → M p → o.eq p = true → o.type.SameReading o.version p.version) {env env' : List Result}
    (henv : List.Forall₂ (Related (InUse M)) env env') {p : Process} (hp : p.Ok (lim + 2) (InUse M)) (st : Statement)
    (hst : st.Adds (lim + 2) env' M) :
    Related (InUse M) (st.run (.cached hash H (lim + 2)) (lim + 2) env p).1 (st.run (.plain (lim + 2)) (lim + 2) env' ()).1 ∧
      (st.run (.cached hash H (lim + 2)) (lim + 2) env p).2.Ok (lim + 2) (InUse M) := by
  have hQ := inUse_alike hM
  have hcan : ∀ o, InUse M o → o.version.Canonical := fun o ho => ho.1.2
  have gv := getVersion_rel henv
  have gs := getSpecifier_rel henv
  have gx := getSet_rel henv
  obtain ⟨hmade, hread⟩ := hst
  have convert : ∀ {s t : Specifier} {p : Process}, p.Ok (lim + 2) (InUse M) → RelSpecifier (InUse M) s t →
      Both RelSet ((Library.cached hash H (lim + 2)).toSet s p).1 (t.toSet (lim + 2)) ∧
        ((Library.cached hash H (lim + 2)).toSet s p).2.Ok (lim + 2) (InUse M) := by
    intro s t p hp hst
    obtain ⟨h1, h2, h3⟩ := toSet_rel H lim hQ hcan hst hp.sets.1 hp.convertedEnds
    exact ⟨h1, hp.versions, hp.specifiers, ⟨h2, hp.sets.2⟩, hp.parsedEnds, h3, hp.back, hp.backBasic⟩
  have express : ∀ {x y : VSet} {p : Process}, p.Ok (lim + 2) (InUse M) → RelSet x y →
      Both (RelSpecifier (InUse M)) ((Library.cached hash H (lim + 2)).fromSet x p).1 (fromSet (lim + 2) y) ∧
        ((Library.cached hash H (lim + 2)).fromSet x p).2.Ok (lim + 2) (InUse M) := by
    intro x y p hp hxy
    obtain ⟨h1, h2, h3⟩ := fromSet_rel H (lim + 2) (M := M) hxy hp.back hp.backBasic
    exact ⟨h1, hp.versions, hp.specifiers, hp.sets, hp.parsedEnds, hp.convertedEnds, h2, h3⟩
  cases st with
  | parseVersion s =>
    obtain ⟨h1, h2⟩ := wrap_pure hash Version.parse s p.versions hp.versions
    refine ⟨?_, h2, hp.specifiers, hp.sets, hp.parsedEnds, hp.convertedEnds, hp.back, hp.backBasic⟩
    refine both_map (R := fun a b => a = b ∧ a.Canonical) (fun x y h => h) (a := (Verif.parseVersion hash s p.versions).1) ?_
    unfold Verif.parseVersion
    rw [h1]
    show Both _ _ (Version.parse s)
    cases hs : Version.parse s with
    | error e => rfl
    | ok v => exact ⟨rfl, parse_canonical hs⟩
  | parseSpecifier s =>
    obtain ⟨h1, h2⟩ := wrap_pure hash Specifier.parse s p.specifiers hp.specifiers
    refine ⟨?_, hp.versions, h2, hp.sets, hp.parsedEnds, hp.convertedEnds, hp.back, hp.backBasic⟩
    refine both_map (R := RelSpecifier (InUse M)) (fun x y h => h) (a := (Verif.parseSpecifier hash s p.specifiers).1) ?_
    unfold Verif.parseSpecifier
    rw [h1]
    show Both _ _ (Specifier.parse s)
    cases hs : Specifier.parse s with
    | error e => rfl
    | ok t =>
      have ho := parse_over hs (hmade t (by show Except.map _ (Specifier.parse s) = _; rw [hs]; rfl))
      exact ⟨eq_refl _, ho, ho⟩
  | parseVersionSet s =>
    have hover : ∀ t, Specifier.parse s = .ok t → t.Over (InUse M) := fun t ht => parse_over ht (hread s t rfl ht)
    obtain ⟨h1, h2⟩ := parseVersionSet_ok hash H (hQ.coherent (lim + 2)) (s := s) hover hp.sets
    obtain ⟨e1, e2, e3⟩ := parseVersionSet_ends hash H (lim + 2) s (fun t ht => (hover t ht).canonical hcan) p.sets hp.parsedEnds
      hp.convertedEnds
    refine ⟨?_, hp.versions, hp.specifiers, h2, e2, e3, hp.back, hp.backBasic⟩
    exact both_map (R := RelSet) (fun x y h => h) (both_set h1 e1 fun x hx => (parsed_canonical hx).2)
  | operator t i =>
    refine ⟨?_, hp⟩
    have hr := gv i
    simp only [run] at hmade ⊢
    cases ha : getVersion env i <;> cases hb : getVersion env' i <;> rw [ha, hb] at hr
    · exact hr
    · exact hr.elim
    · exact hr.elim
    · obtain ⟨rfl, hc⟩ := hr
      rename_i v
      cases ho : Operator.create t v with
      | error e => simp only [ho, bind, Except.bind]; rfl
      | ok o =>
        have hq := create_inUse hc ho (hmade (.one o) (by simp only [hb, ho, bind, Except.bind]) o (.one o))
        simp only [ho, bind, Except.bind]
        exact ⟨eq_refl _, .one hq, .one hq⟩
  | anyOf l =>
    exact ⟨(Both.mapM gs l).bind fun x y h => (anyOf_rel h).bind fun s t h => h, hp⟩
  | allOf l =>
    exact ⟨(Both.mapM gs l).bind fun x y h => (allOf_rel h).bind fun s t h => h, hp⟩
  | toSet i =>
    have hr := gs i
    simp only [run, call]
    cases ha : getSpecifier env i <;> cases hb : getSpecifier env' i <;> rw [ha, hb] at hr
    · exact ⟨hr, hp⟩
    · exact hr.elim
    · exact hr.elim
    · obtain ⟨h1, h2⟩ := convert hp hr
      exact ⟨both_map (T := RelOutcome (InUse M)) (f := .set) (g := .set) (fun x y h => h) h1, h2⟩
  | fromSet i =>
    have hr := gx i
    simp only [run, call]
    cases ha : getSet env i <;> cases hb : getSet env' i <;> rw [ha, hb] at hr
    · exact ⟨hr, hp⟩
    · exact hr.elim
    · exact hr.elim
    · obtain ⟨h1, h2⟩ := express hp hr
      exact ⟨both_map (T := RelOutcome (InUse M)) (f := .specifier) (g := .specifier) (fun x y h => h) h1, h2⟩
  | simplify i =>
    have hr := gs i
    simp only [run, call]
    cases ha : getSpecifier env i <;> cases hb : getSpecifier env' i <;> rw [ha, hb] at hr
    · exact ⟨hr, hp⟩
    · exact hr.elim
    · exact hr.elim
    · rename_i s t
      obtain ⟨h1, h2⟩ := convert hp hr
      dsimp only [Library.plain]
      generalize (Library.cached hash H (lim + 2)).toSet s p = r at h1 h2
      obtain ⟨q, p'⟩ := r
      dsimp only at h1 h2 ⊢
      cases q <;> cases ht : t.toSet (lim + 2) <;> rw [ht] at h1
      · exact ⟨h1, h2⟩
      · exact h1.elim
      · exact h1.elim
      · obtain ⟨h3, h4⟩ := express h2 h1
        exact ⟨both_map (T := RelOutcome (InUse M)) (f := .specifier) (g := .specifier) (fun x y h => h) h3, h4⟩
  | intersection i j =>
    refine ⟨(gx i).bind fun a b hab => (gx j).bind fun c d hcd => Both.bind (R := RelSet) ?_ fun s t h => h, hp⟩
    exact both_set (inter_same hab.1 hcd.1 _) (fun x hx => intersection_ends hab.2.1 hcd.2.1 hx)
      (fun x hx => intersection_ends hab.2.2 hcd.2.2 hx)
  | union i j =>
    refine ⟨(gx i).bind fun a b hab => (gx j).bind fun c d hcd => Both.bind (R := RelSet) ?_ fun s t h => h, hp⟩
    exact both_set (union_same hab.1 hcd.1 _) (fun x hx => unionWith_ends hab.2.1 hcd.2.1 hx)
      (fun x hx => unionWith_ends hab.2.2 hcd.2.2 hx)
  | difference i j =>
    refine ⟨(gx i).bind fun a b hab => (gx j).bind fun c d hcd => Both.bind (R := RelSet) ?_ fun s t h => h, hp⟩
    exact both_set (difference_same hab.1 hcd.1 _) (fun x hx => difference_ends hab.2.1 hcd.2.1 hx)
      (fun x hx => difference_ends hab.2.2 hcd.2.2 hx)
  | symmetricDifference i j =>
    refine ⟨(gx i).bind fun a b hab => (gx j).bind fun c d hcd => Both.bind (R := RelSet) ?_ fun s t h => h, hp⟩
    exact both_set (symmetricDifference_same hab.1 hcd.1 _) (fun x hx => symmetricDifference_ends hab.2.1 hcd.2.1 hx)
      (fun x hx => symmetricDifference_ends hab.2.2 hcd.2.2 hx)
  | complement i =>
    refine ⟨(gx i).bind fun a b hab => Both.bind (R := RelSet) ?_ fun s t h => h, hp⟩
    exact both_set (complement_same hab.1 _) (fun x hx => complement_ends hab.2.1 hx) (fun x hx => complement_ends hab.2.2 hx)
  | accepts i j =>
    refine ⟨(gs i).bind fun a b hab => (gv j).bind fun v w hvw => ?_, hp⟩
    obtain ⟨rfl, -⟩ := hvw
    rw [hQ.accepts hab.2.1 hab.2.2 hab.1]
    cases b.accepts v <;> rfl
  | contains i j =>
    refine ⟨(gx i).bind fun a b hab => (gv j).bind fun v w hvw => ?_, hp⟩
    obtain ⟨rfl, -⟩ := hvw
    rw [hab.1.contains]
    rfl
  | sameSpecifier i j =>
    refine ⟨(gs i).bind fun a b hab => (gs j).bind fun c d hcd => ?_, hp⟩
    rw [Specifier.eq_eq hab.1 hcd.1]
    rfl
  | sameSet i j =>
    refine ⟨(gx i).bind fun a b hab => (gx j).bind fun c d hcd => ?_, hp⟩
    rw [hab.1.eq_eq hcd.1]
    rfl

theorem mem_runFrom {σ : Type} (L : Library σ) (lim : Nat) {r : Result} (program : List Statement) :
    ∀ (env : List Result) (p : σ), r ∈ env → r ∈ runFrom L lim env p program := by
  induction program with
  | nil => exact fun env p h => h
  | cons st rest ih => exact fun env p h => ih _ _ (List.mem_append_left _ h)

theorem runFrom_rel (hash : PyStr → Int) (H : Hasher) (lim : Nat) {M : Operator → Prop}
    (hM : ∀ o p, M o → M p → o.eq p = true → o.type.SameReading o.version p.version) (program : List Statement) :
    ∀ {env env' : List Result} {p : Process}, List.Forall₂ (Related (InUse M)) env env' → p.Ok (lim + 2) (InUse M) →
      (∀ s, .ok (.specifier s) ∈ runFrom (.plain (lim + 2)) (lim + 2) env' () program → ∀ o, s.Uses o → M o) →
      (∀ string s, .parseVersionSet string ∈ program → Specifier.parse string = .ok s → ∀ o, s.Uses o → M o) →
      List.Forall₂ (Related (InUse M)) (runFrom (.cached hash H (lim + 2)) (lim + 2) env p program)
        (runFrom (.plain (lim + 2)) (lim + 2) env' () program) := by
  induction program with
  | nil => exact fun h _ _ _ => h
  | cons st rest ih =>
    intro env env' p henv hp hmade hread
    obtain ⟨h1, h2⟩ := run_rel hash H lim hM henv hp st
      ⟨fun s hs o ho => hmade s (mem_runFrom _ _ rest _ _ (List.mem_append_right _ (by rw [hs]; exact List.mem_singleton_self _))) o ho,
        fun string s he hs o ho => hread string s (by simp [he]) hs o ho⟩
    exact ih (List.rel_append henv (.cons h1 .nil)) h2 hmade (fun string s hm => hread string s (by simp [hm]))

/-- C96. In a new process with all its caches, every statement of a program gives what it gives without any caches: the same
exception, the same version or truth value, or an equal specifier or set that accepts or contains the same versions, if of any
two equal operators that the program makes the same parts matter. -/
theorem C96_sessions (hash : PyStr → Int) (H : Hasher) (lim : Nat) (program : List Statement)
    (h : ∀ o p, Makes (lim + 2) program o → Makes (lim + 2) program p → o.eq p = true → o.type.SameReading o.version p.version) :
    List.Forall₂ SameResult (session hash H (lim + 2) program) (reference (lim + 2) program) := by
  have hQ := inUse_alike h
  have := runFrom_rel hash H lim h program (env := []) (env' := []) (p := {}) .nil
    ⟨by simp, by simp, ⟨(by intro e he; cases he), (by intro e he; cases he)⟩, by simp, by simp, (by intro e he; cases he), by simp⟩
    (fun s hs o ho => .inl ⟨s, hs, ho⟩) (fun string s hm hs o ho => .inr ⟨string, s, hm, hs, ho⟩)
  refine this.imp fun a b hab => ?_
  rcases a with e | a <;> rcases b with f | b <;> try first | exact hab | exact hab.elim
  cases a <;> cases b <;> try first | exact hab.elim
  · exact hab.1
  · exact ⟨hab.1, hQ.accepts hab.2.1 hab.2.2 hab.1⟩
  · exact ⟨(eq_iff_cov hab.1.1 hab.1.2.1).2 hab.1.2.2, hab.1.contains⟩
  · exact hab

/-- A program with `~=1.0`, which it reads in two ways. -/
example (hash : PyStr → Int) (H : Hasher) : ∃ a b c d, session hash H 7 [.parseVersionSet "~=1.0".toList,
      .parseSpecifier "~=1.0".toList, .toSet 1, .sameSet 0 2] = [a, b, c, d] ∧ SameResult d (.ok (.bool true)) := by
  have p1 : Specifier.parse "~=1.0".toList = .ok (.one ⟨.tildeEqual, exVersion [1, 0]⟩) := by rfl
  have hr : reference 7 [.parseVersionSet "~=1.0".toList, .parseSpecifier "~=1.0".toList, .toSet 1, .sameSet 0 2] =
      [.ok (.set (.item (exRange (some [1, 0]) (some [2, 0])))), .ok (.specifier (.one ⟨.tildeEqual, exVersion [1, 0]⟩)),
        .ok (.set (.item (exRange (some [1, 0]) (some [2, 0])))), .ok (.bool true)] := by rfl
  have hm : ∀ o, Makes 7 [.parseVersionSet "~=1.0".toList, .parseSpecifier "~=1.0".toList, .toSet 1, .sameSet 0 2] o →
      o = ⟨.tildeEqual, exVersion [1, 0]⟩ := by
    rintro o (⟨s, hs, ho⟩ | ⟨string, s, hs, hp, ho⟩)
    · rw [hr] at hs
      simp only [List.mem_cons, Except.ok.injEq, Outcome.specifier.injEq, reduceCtorEq, false_or, List.not_mem_nil, or_false] at hs
      subst hs
      cases ho; rfl
    · simp only [List.mem_cons, Statement.parseVersionSet.injEq, reduceCtorEq, List.not_mem_nil, or_false] at hs
      subst hs
      rw [p1] at hp
      cases hp
      cases ho; rfl
  have := C96_sessions hash H 5 [.parseVersionSet "~=1.0".toList, .parseSpecifier "~=1.0".toList, .toSet 1, .sameSet 0 2]
    (fun o p ho hp _ => by rw [hm o ho, hm p hp]; unfold OpType.SameReading; rfl)
  rw [hr] at this
  obtain ⟨a, as, -, h1, e⟩ := List.forall₂_cons_right_iff.1 this
  obtain ⟨b, bs, -, h2, rfl⟩ := List.forall₂_cons_right_iff.1 h1
  obtain ⟨c, cs, -, h3, rfl⟩ := List.forall₂_cons_right_iff.1 h2
  obtain ⟨d, ds, h, h4, rfl⟩ := List.forall₂_cons_right_iff.1 h3
  obtain rfl := List.forall₂_nil_right_iff.1 h4
  exact ⟨a, b, c, d, e, h⟩

theorem session_two (hash : PyStr → Int) (H : Hasher) (lim : Nat) {s t : PyStr} {u : OpType} {a b : Version} (hst : s ≠ t)
    (hs : Specifier.parse s = .ok (.one ⟨u, a⟩)) (ht : Specifier.parse t = .ok (.one ⟨u, b⟩)) (h : a ==ₚ b) {x : VSet}
    (hx : (⟨u, a⟩ : Operator).toSet lim = .ok x) :
    session hash H lim [.parseVersionSet s, .parseVersionSet t] = [.ok (.set x), .ok (.set x)] := by
  have h1 : Verif.parseVersionSet hash H lim s {} = (.ok x, ⟨[(s, x)], [(.one ⟨u, a⟩, x)]⟩) := by
    simp only [Verif.parseVersionSet, hs, convertCall, toSetCached, Cached.wrap, List.find?_nil, Cached.pure, hx]
  have he : (Specifier.one ⟨u, a⟩).eq (.one ⟨u, b⟩) = true := by
    have hu : u.eq u = true := by cases u <;> rfl
    simp [Specifier.eq, Operator.eq, hu, h]
  have hh : H.specifier (.one ⟨u, a⟩) = H.specifier (.one ⟨u, b⟩) := rfl
  have h2 : (Verif.parseVersionSet hash H lim t ⟨[(s, x)], [(.one ⟨u, a⟩, x)]⟩).1 = .ok x := by
    unfold Verif.parseVersionSet
    rw [List.find?_cons_of_neg (by simp [hst]), List.find?_nil]
    simp only [ht, convertCall, toSetCached, Cached.wrap]
    rw [List.find?_cons_of_pos (by simp [he, hh])]
  simp only [session, runFrom, run, returns, Library.cached, h1, List.nil_append, List.cons_append, h2]
  rfl

/-- C96. The condition cannot be dropped: if the strings `s` and `t` denote operators of the same type that are equal, but not
read the same, then the program that reads the sets of both gets a wrong set for the second. -/
theorem C96_only_if (hash : PyStr → Int) (H : Hasher) (lim : Nat) (s t : PyStr) (u : OpType) (a b : Version)
    (hs : Specifier.parse s = .ok (.one ⟨u, a⟩)) (ht : Specifier.parse t = .ok (.one ⟨u, b⟩)) (h : a ==ₚ b)
    (hr : ¬ u.SameReading a b) :
    ¬ List.Forall₂ SameResult (session hash H lim [.parseVersionSet s, .parseVersionSet t])
      (reference lim [.parseVersionSet s, .parseVersionSet t]) := by
  have hst : s ≠ t := by
    rintro rfl
    rw [hs] at ht
    cases ht
    apply hr
    unfold OpType.SameReading
    split <;> simp
  obtain ⟨x, y, hx, hy, hxy⟩ := reading_differ (parse_uses hs (.one _)).1 (parse_uses ht (.one _)).1 h hr
  rw [session_two hash H lim hst hs ht h (hx lim)]
  have e : reference lim [.parseVersionSet s, .parseVersionSet t] = [.ok (.set x), .ok (.set y)] := by
    simp only [reference, runFrom, run, returns, Library.plain, VSet.parse, hs, ht, bind, Except.bind, Specifier.toSet, hx, hy]
    rfl
  rw [e]
  intro hall
  obtain ⟨-, h2⟩ := List.forall₂_cons.1 hall
  obtain ⟨h3, -⟩ := List.forall₂_cons.1 h2
  rw [h3.1] at hxy
  cases hxy

example (hash : PyStr → Int) (H : Hasher) : ¬ List.Forall₂ SameResult
    (session hash H 7 [.parseVersionSet "^0".toList, .parseVersionSet "^0.0".toList])
    (reference 7 [.parseVersionSet "^0".toList, .parseVersionSet "^0.0".toList]) :=
  C96_only_if hash H 7 _ _ .caret (exVersion [0]) (exVersion [0, 0]) (by rfl) (by rfl) (by decide +kernel)
    (by unfold OpType.SameReading; decide)

/-- C96. Even under the condition, spellings may change: after the set of a string `== a` was read, the set of `== b` with `b`
equal to `a` is given with `a`, while without the caches it has `b`. -/
theorem C96_spelling (hash : PyStr → Int) (H : Hasher) (lim : Nat) (s t : PyStr) (a b : Version) (hst : s ≠ t)
    (hs : Specifier.parse s = .ok (.one ⟨.doubleEqual, a⟩)) (ht : Specifier.parse t = .ok (.one ⟨.doubleEqual, b⟩)) (h : a ==ₚ b) :
    session hash H lim [.parseVersionSet s, .parseVersionSet t] = [.ok (.set (.item (.point a))), .ok (.set (.item (.point a)))] ∧
    reference lim [.parseVersionSet s, .parseVersionSet t] = [.ok (.set (.item (.point a))), .ok (.set (.item (.point b)))] := by
  refine ⟨session_two hash H lim hst hs ht h rfl, ?_⟩
  simp only [reference, runFrom, run, returns, Library.plain, VSet.parse, hs, ht, bind, Except.bind, Specifier.toSet]
  rfl

example (hash : PyStr → Int) (H : Hasher) :
    session hash H 7 [.parseVersionSet "==1".toList, .parseVersionSet "==1.0".toList] =
      [.ok (.set (.item (exPoint [1]))), .ok (.set (.item (exPoint [1])))] :=
  (C96_spelling hash H 7 _ _ (exVersion [1]) (exVersion [1, 0]) (by decide) (by rfl) (by rfl) (by decide +kernel)).1

end Verif
