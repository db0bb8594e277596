import Verif.Model.Threads
import Verif.Props.Sessions
/-!
# Threads that share the caches (C97)
-/

namespace Verif
open Specifier Statement

/-! ### what the memory holds -/

/-- Keys that programs with operators `Q` use. -/
def Key.Legit (Q : Operator → Prop) : Key → Prop
  | .toSet t => t.Over Q
  | .fromSet x => x.Normal ∧ x.CanonicalEnds
  | _ => True

/-- What may be stored for a key. -/
def Key.Holds (lim : Nat) : Key → Stored → Prop
  | .version s, .version v => Version.parse s = .ok v
  | .specifier s, .specifier t => Specifier.parse s = .ok t
  | .versionSet s, .set x => Both RelSet (.ok x) (VSet.parse lim s)
  | .toSet t, .set x => Both RelSet (.ok x) (t.toSet lim)
  | .fromSet x, .specifier t => t.Represents x ∧ t.Over Operator.Basic
  | _, _ => False

def Memory.Ok (lim : Nat) (Q : Operator → Prop) (m : Memory) : Prop := ∀ e ∈ m, e.1.Legit Q ∧ e.1.Holds lim e.2

theorem relSet_trans {a b c : Except PyErr VSet} (h : Both RelSet a b) (g : Both RelSet b c) : Both RelSet a c := by
  cases a <;> cases b <;> try exact h.elim
  · cases c
    · exact h.trans g
    · exact g.elim
  · cases c
    · exact g.elim
    · exact ⟨h.1.trans g.1, h.2.1, g.2.2⟩

theorem Key.Holds.congr {hash : PyStr → Int} {H : Hasher} {lim : Nat} {Q : Operator → Prop} (hQ : Alike Q)
    (hcan : ∀ o, Q o → o.version.Canonical)
    {j k : Key} (hf : j.fits hash H k = true) (hj : j.Legit Q) (hk : k.Legit Q) {v : Stored} (h : j.Holds (lim + 2) v) :
    k.Holds (lim + 2) v := by
  cases j <;> cases k <;> simp only [Key.fits, Bool.and_eq_true, decide_eq_true_eq, Bool.false_eq_true] at hf
  · obtain ⟨-, rfl⟩ := hf; exact h
  · obtain ⟨-, rfl⟩ := hf; exact h
  · obtain ⟨-, rfl⟩ := hf; exact h
  · cases v <;> try exact h.elim
    exact relSet_trans h (both_set (eq_same (hQ.coherent _) hj hk hf.2) (Specifier.toSet_ends (hj.canonical hcan))
      (Specifier.toSet_ends (hk.canonical hcan)))
  · cases v <;> try exact h.elim
    exact ⟨represents_congr hj.1 hk.1 hf.2 h.1, h.2⟩

/-! ### tasks that do what they should -/

/-- Whatever the lookups find, if it is right, the task stores only what is right, and its result satisfies `R`. -/
def Task.Right (lim : Nat) (Q : Operator → Prop) {γ : Type} (R : γ → Prop) : Task γ → Prop
  | .done r => R r
  | .lookup k next => k.Legit Q ∧ (∀ v, k.Holds lim v → (next (some v)).Right lim Q R) ∧ (next none).Right lim Q R
  | .store k v next => k.Legit Q ∧ k.Holds lim v ∧ next.Right lim Q R

section
variable {lim : Nat} {Q : Operator → Prop} {γ δ : Type}

theorem Task.Right.bind {R : γ → Prop} {T : δ → Prop} {m : Task γ} (h : m.Right lim Q R) {f : γ → Task δ}
    (hf : ∀ r, R r → (f r).Right lim Q T) : (m.bind f).Right lim Q T := by
  induction m with
  | done r => exact hf r h
  | lookup k next ih => exact ⟨h.1, fun v hv => ih _ (h.2.1 v hv), ih _ h.2.2⟩
  | store k v next ih => exact ⟨h.1, h.2.1, ih h.2.2⟩

theorem Task.Right.mono {R T : γ → Prop} {m : Task γ} (h : m.Right lim Q R) (hRT : ∀ r, R r → T r) : m.Right lim Q T := by
  induction m with
  | done r => exact hRT r h
  | lookup k next ih => exact ⟨h.1, fun v hv => ih _ (h.2.1 v hv), ih _ h.2.2⟩
  | store k v next ih => exact ⟨h.1, h.2.1, ih h.2.2⟩

theorem Task.Right.andThen {r : Except PyErr γ} {s : Except PyErr δ} {A : γ → γ → Prop} {B : δ → δ → Prop}
    {m : Task (Except PyErr γ)} (h : m.Right lim Q (fun x => Both A x r)) {f : γ → Task (Except PyErr δ)}
    {g : γ → Except PyErr δ} (hs : s = r.bind g) (hf : ∀ x y, A x y → (f x).Right lim Q (fun z => Both B z (g y))) :
    (m.andThen f).Right lim Q (fun z => Both B z s) := by
  subst hs
  refine h.bind fun x hx => ?_
  cases x <;> cases r <;> first | exact hx | exact hx.elim | exact hf _ _ hx

theorem Task.Right.call {A : γ → γ → Prop} {k : Key} {get : Stored → Option γ} {put : γ → Stored}
    {body : Task (Except PyErr γ)} {r : Except PyErr γ} (hk : k.Legit Q)
    (hget : ∀ v, k.Holds lim v → ∃ x y, get v = some x ∧ r = .ok y ∧ A x y)
    (hput : ∀ x y, r = .ok y → A x y → k.Holds lim (put x))
    (h : body.Right lim Q (fun x => Both A x r)) : (Task.call k get put body).Right lim Q (fun x => Both A x r) := by
  refine ⟨hk, fun v hv => ?_, ?_⟩
  · obtain ⟨x, y, h1, h2, h3⟩ := hget v hv
    dsimp only [Option.bind_some]
    rw [h1, h2]
    exact h3
  · refine h.bind fun x hx => ?_
    cases x with
    | error e => exact hx
    | ok x => cases r with
      | error e => exact hx.elim
      | ok y => exact ⟨hk, hput x y rfl hx, hx⟩
end

section
variable {lim : Nat} {Q : Operator → Prop}

/-- The task gives the set, up to spelling. -/
abbrev Task.Sets (lim : Nat) (Q : Operator → Prop) (m : Task (Except PyErr VSet)) (r : Except PyErr VSet) : Prop :=
  m.Right lim Q (fun x => Both RelSet x r)

theorem call_sets {k : Key} {r : Except PyErr VSet} (hk : k.Legit Q) (hr : ∀ v, k.Holds lim v → ∃ x, v = .set x)
    (hs : ∀ x, k.Holds lim (.set x) ↔ Both RelSet (.ok x) r) {body : Task (Except PyErr VSet)} (h : body.Sets lim Q r) :
    (Task.call k Stored.toSet? .set body).Sets lim Q r := by
  refine Task.Right.call hk (fun v hv => ?_) (fun x y e hxy => ?_) h
  · obtain ⟨x, rfl⟩ := hr v hv
    have := (hs x).1 hv
    cases r with
    | error e => exact this.elim
    | ok y => exact ⟨x, y, rfl, rfl, this⟩
  · subst e
    exact (hs x).2 hxy

theorem call_toSet {t : Specifier} (ht : t.Over Q) {body : Task (Except PyErr VSet)} (h : body.Sets lim Q (t.toSet lim)) :
    (Task.call (.toSet t) Stored.toSet? .set body).Sets lim Q (t.toSet lim) := by
  refine call_sets (k := .toSet t) ht (fun v hv => ?_) (fun x => Iff.rfl) h
  cases v <;> first | exact hv.elim | exact ⟨_, rfl⟩

theorem reduceAllTask_sets {l : List Specifier} (ih : ∀ s ∈ l, (s.toSetTask (lim + 2)).Sets (lim + 2) Q (s.toSet (lim + 2))) :
    ∀ x y, RelSet x y → (reduceAllTask (lim + 2) x l).Sets (lim + 2) Q (reduceAll (lim + 2) y l) := by
  induction l with
  | nil => intro x y h; simp only [reduceAllTask, reduceAll]; exact h
  | cons s l ihl =>
    intro x y h
    simp only [reduceAllTask]
    refine Task.Right.andThen (ih s (by simp)) (g := fun z => (y.intersection (lim + 2) z).bind fun w => reduceAll (lim + 2) w l)
      (by simp only [reduceAll]; rfl) fun u v huv => ?_
    exact Task.Right.andThen (m := .done _) (both_set (inter_same h.1 huv.1 _) (fun z hz => intersection_ends h.2.1 huv.2.1 hz)
      (fun z hz => intersection_ends h.2.2 huv.2.2 hz)) rfl fun a b hab => ihl (fun t ht => ih t (by simp [ht])) a b hab

theorem reduceAnyTask_sets {l : List Specifier} (ih : ∀ s ∈ l, (s.toSetTask (lim + 2)).Sets (lim + 2) Q (s.toSet (lim + 2))) :
    ∀ x y, RelSet x y → (reduceAnyTask (lim + 2) x l).Sets (lim + 2) Q (reduceAny (lim + 2) y l) := by
  induction l with
  | nil => intro x y h; simp only [reduceAnyTask, reduceAny]; exact h
  | cons s l ihl =>
    intro x y h
    simp only [reduceAnyTask]
    refine Task.Right.andThen (ih s (by simp)) (g := fun z => (y.unionWith (lim + 2) z).bind fun w => reduceAny (lim + 2) w l)
      (by simp only [reduceAny]; rfl) fun u v huv => ?_
    exact Task.Right.andThen (m := .done _) (both_set (union_same h.1 huv.1 _) (fun z hz => unionWith_ends h.2.1 huv.2.1 hz)
      (fun z hz => unionWith_ends h.2.2 huv.2.2 hz)) rfl fun a b hab => ihl (fun t ht => ih t (by simp [ht])) a b hab

theorem toSetTask_sets (hQ : Alike Q) (hcan : ∀ o, Q o → o.version.Canonical) {s : Specifier} (hs : s.Over Q) :
    (s.toSetTask (lim + 2)).Sets (lim + 2) Q (s.toSet (lim + 2)) := by
  have hs' := hs
  have base : ∀ {t : Specifier} {r : Except PyErr VSet}, t.Over Q → t.toSet (lim + 2) = r →
      (Task.done r).Sets (lim + 2) Q (t.toSet (lim + 2)) := by
    intro t r ht hr
    have he := Specifier.toSet_ends (lim := lim + 2) (ht.canonical hcan)
    have := both_set (eq_same (hQ.coherent (lim + 2)) ht ht (eq_refl t)) he he
    rw [← hr]
    exact this
  induction hs with
  | never => rw [toSetTask]; exact call_toSet hs' (base hs' (by rw [Specifier.toSet]))
  | always => rw [toSetTask]; exact call_toSet hs' (base hs' (by rw [Specifier.toSet]))
  | one ho => rw [toSetTask]; exact call_toSet hs' (base hs' (by rw [Specifier.toSet]))
  | all hl hin ih =>
    rename_i l
    match l, hl, hin, ih, hs' with
    | s :: l, _, hin, ih, hs' =>
      simp only [toSetTask]
      refine call_toSet hs' (Task.Right.andThen (ih s (by simp) (hin s (by simp))) (g := fun x => reduceAll (lim + 2) x l)
        (by simp only [Specifier.toSet]; rfl) ?_)
      exact reduceAllTask_sets (fun t ht => ih t (by simp [ht]) (hin t (by simp [ht])))
  | any hl hin ih =>
    rename_i l
    match l, hl, hin, ih, hs' with
    | s :: l, _, hin, ih, hs' =>
      simp only [toSetTask]
      refine call_toSet hs' (Task.Right.andThen (ih s (by simp) (hin s (by simp))) (g := fun x => reduceAny (lim + 2) x l)
        (by simp only [Specifier.toSet]; rfl) ?_)
      exact reduceAnyTask_sets (fun t ht => ih t (by simp [ht]) (hin t (by simp [ht])))

/-- The task gives a specifier that stands for the set. -/
abbrev Task.Expresses (lim : Nat) (Q : Operator → Prop) (m : Task (Except PyErr Specifier)) (x : VSet) : Prop :=
  m.Right lim Q (fun r => ∃ t, r = .ok t ∧ t.Represents x ∧ t.Over Operator.Basic)

theorem call_expresses {x : VSet} (hx : x.Normal) (he : x.CanonicalEnds) {body : Task (Except PyErr Specifier)}
    (h : body.Expresses lim Q x) : (Task.call (.fromSet x) Stored.toSpecifier? .specifier body).Expresses lim Q x := by
  refine ⟨⟨hx, he⟩, fun v hv => ?_, ?_⟩
  · cases v <;> try exact hv.elim
    exact ⟨_, rfl, hv⟩
  · refine h.bind fun r hr => ?_
    obtain ⟨t, rfl, ht⟩ := hr
    exact ⟨⟨hx, he⟩, ht, t, rfl, ht⟩

theorem fromItemTask_expresses {i : Item} (hi : i.Normal) (he : i.Ends Version.Canonical) :
    (fromItemTask i).Expresses lim Q (.item i) :=
  call_expresses (x := .item i) hi (by intro j hj; simp only [VSet.extract, List.mem_singleton] at hj; exact hj ▸ he)
    ⟨ofItem i, fromItem_eq hi, fromItem_represents hi, ofItem_basic he⟩

theorem fromItemsTask_right {l : List Item} (hl : AllNormal l) (he : AllEnds Version.Canonical l) :
    (fromItemsTask l).Right lim Q (fun r => ∃ ts, r = .ok ts ∧
      ts.length = l.length ∧ eqList ts (l.map ofItem) = true ∧ (∀ t ∈ ts, t.Over Operator.Basic) ∧
      ∀ v : Version, anyAccepts ts v = .ok (l.any (fun i => i.contains v))) := by
  induction l with
  | nil => exact ⟨[], rfl, rfl, rfl, by simp, fun v => by simp [anyAccepts]⟩
  | cons i l ih =>
    refine (fromItemTask_expresses hl.head (he i (by simp))).bind fun r hr => ?_
    obtain ⟨t, rfl, t2, t3⟩ := hr
    refine (ih hl.tail fun j hj => he j (by simp [hj])).bind fun r hr => ?_
    obtain ⟨ts, rfl, s3, s4, s6, s5⟩ := hr
    refine ⟨t :: ts, rfl, by simp [s3], ?_, by simpa using ⟨t3, s6⟩, fun v => ?_⟩
    · obtain ⟨⟨u, u1, u2⟩, -⟩ := t2
      have : fromItem i = .ok u := u1 0
      rw [fromItem_eq hl.head] at this
      injection this with this
      subst this
      simp only [List.map_cons, eqList, Bool.and_eq_true]
      exact ⟨u2, s4⟩
    · simp only [anyAccepts, t2.2 v, VSet.contains, s5 v, List.any_cons, Bind.bind, Except.bind]
      cases i.contains v <;> simp

theorem fromSetTask_expresses (n : Nat) {x : VSet} (hx : x.Normal) (hends : x.CanonicalEnds) :
    (fromSetTask n x).Expresses lim Q x := by
  cases x with
  | empty =>
    exact call_expresses hx hends ⟨never, rfl, ⟨⟨never, fun _ => rfl, rfl⟩, fun v => by simp [Specifier.accepts, VSet.contains]⟩, .never⟩
  | item i => exact fromItemTask_expresses hx (hends i (by simp [VSet.extract]))
  | union items =>
    refine call_expresses hx hends ?_
    obtain ⟨t, t1, t2, -⟩ := fromSet_spec hx
    have hbasic := fromSet_basic hx hends (t1 n)
    have hfrom := t1 n
    simp only [Specifier.fromSet] at hfrom
    cases he : tryExcludeVersion n items with
    | error e => simp [he, bind, Except.bind] at hfrom
    | ok o =>
      cases o with
      | some s =>
        simp only [he, bind, Except.bind, Except.ok.injEq] at hfrom
        subst hfrom
        exact ⟨s, rfl, ⟨⟨s, t1, eq_refl _⟩, t2⟩, hbasic⟩
      | none =>
        obtain ⟨hl, hn, -⟩ := hx
        simp only [he, bind, Except.bind, mapM_fromItem hn] at hfrom
        refine (fromItemsTask_right hn hends).bind fun r hr => ?_
        obtain ⟨ts, rfl, s3, s4, s6, s5⟩ := hr
        rw [← s3] at hl
        have h1 : Specifier.anyOf ts = .ok (any ts) := by
          match ts, hl with
          | _ :: _ :: _, _ => rfl
        have h2 : t = any (items.map ofItem) := by
          match items, s3, hl, hfrom with
          | a :: b :: l, _, _, hfrom => exact (Except.ok.inj hfrom).symm
          | [_], s3, hl, _ => simp at s3; omega
          | [], s3, hl, _ => simp at s3; simp [s3] at hl
        refine ⟨any ts, h1, ⟨⟨t, t1, ?_⟩, fun v => ?_⟩, anyOf_over s6 h1⟩
        · subst h2; simp only [Specifier.eq]; exact s4
        · simp only [Specifier.accepts, s5, VSet.contains]

theorem versionTask_right (s : PyStr) : (versionTask s).Right lim Q (fun r => Both Eq r (Version.parse s)) := by
  refine Task.Right.call trivial (fun v hv => ?_) (fun x y hr hxy => ?_) ?_
  · cases v <;> try exact hv.elim
    exact ⟨_, _, rfl, hv, rfl⟩
  · subst hxy; exact hr
  · show Both Eq (Version.parse s) (Version.parse s)
    cases Version.parse s <;> rfl

theorem specifierTask_right (s : PyStr) : (specifierTask s).Right lim Q (fun r => Both Eq r (Specifier.parse s)) := by
  refine Task.Right.call trivial (fun v hv => ?_) (fun x y hr hxy => ?_) ?_
  · cases v <;> try exact hv.elim
    exact ⟨_, _, rfl, hv, rfl⟩
  · subst hxy; exact hr
  · show Both Eq (Specifier.parse s) (Specifier.parse s)
    cases Specifier.parse s <;> rfl

theorem versionSetTask_sets (hQ : Alike Q) (hcan : ∀ o, Q o → o.version.Canonical) {s : PyStr}
    (hs : ∀ t, Specifier.parse s = .ok t → t.Over Q) :
    (versionSetTask (lim + 2) s).Sets (lim + 2) Q (VSet.parse (lim + 2) s) := by
  refine call_sets (k := .versionSet s) trivial (fun v hv => ?_) (fun x => Iff.rfl) ?_
  · cases v <;> first | exact hv.elim | exact ⟨_, rfl⟩
  · cases hp : Specifier.parse s with
    | error e =>
      show Both _ (.error e) _
      simp only [VSet.parse, hp, Bind.bind, Except.bind]
      rfl
    | ok t =>
      have := toSetTask_sets (lim := lim) hQ hcan (hs t hp)
      rw [show VSet.parse (lim + 2) s = t.toSet (lim + 2) by simp only [VSet.parse, hp, Bind.bind, Except.bind]]
      exact this
end

/-! ### statements -/

theorem onResult_right {lim : Nat} {Q : Operator → Prop} {α β : Type} {A : α → α → Prop} {B : β → β → Prop}
    {T : Outcome → Outcome → Prop} {a b : Except PyErr α} (h : Both A a b) {f : β → Outcome} {m : α → Task (Except PyErr β)}
    {g : α → Except PyErr β} (hm : ∀ x y, A x y → (m x).Right lim Q (fun r => Both B r (g y)))
    (hT : ∀ x y, B x y → T (f x) (f y)) : (onResult a f m).Right lim Q (fun r => Both T r ((b.bind g).map f)) :=
  (Task.Right.andThen (m := .done a) h rfl hm).bind fun _ hr => both_map hT hr

theorem express_right {lim : Nat} {M : Operator → Prop} (n : Nat) {x y : VSet} (h : RelSet x y) :
    (fromSetTask n x).Right lim (InUse M) (fun r => Both (RelSpecifier (InUse M)) r (Specifier.fromSet n y)) := by
  obtain ⟨hxy, ex, ey⟩ := h
  refine (fromSetTask_expresses n hxy.1 ex).mono fun r hr => ?_
  obtain ⟨t, rfl, ⟨⟨u, u1, u2⟩, -⟩, hb⟩ := hr
  obtain ⟨u', w, p1, q1, pq⟩ := fromSet_congr hxy.1 hxy.2.1 hxy.2.2
  obtain rfl : u = u' := Except.ok.inj ((u1 n).symm.trans (p1 n))
  rw [q1]
  exact ⟨eq_trans _ _ _ u2 pq, hb.mono fun _ => Operator.Basic.inUse,
    (fromSet_basic hxy.2.1 ey (q1 n)).mono fun _ => Operator.Basic.inUse⟩

theorem convert_right {lim : Nat} {Q : Operator → Prop} (hQ : Alike Q) (hcan : ∀ o, Q o → o.version.Canonical) {s t : Specifier}
    (h : RelSpecifier Q s t) : (s.toSetTask (lim + 2)).Sets (lim + 2) Q (t.toSet (lim + 2)) := by
  obtain ⟨he, hs, ht⟩ := h
  exact (toSetTask_sets hQ hcan hs).mono fun r hr => relSet_trans hr (both_set (eq_same (hQ.coherent _) hs ht he)
    (Specifier.toSet_ends (hs.canonical hcan)) (Specifier.toSet_ends (ht.canonical hcan)))

theorem statement_right (lim : Nat) {M : Operator → Prop}
    (hM : ∀ o p, M o → M p → o.eq p = true → o.type.SameReading o.version p.version) {env env' : List Result}
    (henv : List.Forall₂ (Related (InUse M)) env env') (st : Statement) (hst : st.Adds (lim + 2) env' M) :
    (st.task (lim + 2) env).Right (lim + 2) (InUse M)
      (fun r => Related (InUse M) r (st.run (.plain (lim + 2)) (lim + 2) env' ()).1) := by
  have hQ := inUse_alike hM
  have hcan : ∀ o, InUse M o → o.version.Canonical := fun o ho => ho.1.2
  have hpure := (run_rel (fun _ => 0) ⟨fun _ => 0, fun _ => 0, 0, fun _ => 0, fun _ => 0⟩ lim hM henv (p := {})
    ⟨by simp, by simp, ⟨(by intro e he; cases he), (by intro e he; cases he)⟩, by simp, by simp, (by intro e he; cases he), by simp⟩
    st hst).1
  obtain ⟨hmade, hread⟩ := hst
  cases st with
  | parseVersion s =>
    refine (versionTask_right s).bind fun r hr => ?_
    show Both _ (r.map Outcome.version) ((Version.parse s).map Outcome.version)
    refine both_map (R := fun a b => a = b ∧ a.Canonical) (fun x y h => h) ?_
    cases hs : Version.parse s <;> cases r <;> rw [hs] at hr <;> try first | exact hr | exact hr.elim
    cases hr
    exact ⟨rfl, parse_canonical hs⟩
  | parseSpecifier s =>
    refine (specifierTask_right s).bind fun r hr => ?_
    show Both _ (r.map Outcome.specifier) ((Specifier.parse s).map Outcome.specifier)
    refine both_map (R := RelSpecifier (InUse M)) (fun x y h => h) ?_
    cases hs : Specifier.parse s <;> cases r <;> rw [hs] at hr <;> try first | exact hr | exact hr.elim
    rename_i t _
    cases hr
    have ho := parse_over hs (hmade t (by show Except.map _ (Specifier.parse s) = _; rw [hs]; rfl))
    exact ⟨eq_refl _, ho, ho⟩
  | parseVersionSet s =>
    exact (versionSetTask_sets hQ hcan fun t ht => parse_over ht (hread s t rfl ht)).bind fun r hr =>
      both_map (T := RelOutcome (InUse M)) (f := .set) (g := .set) (fun x y h => h) hr
  | toSet i =>
    have := onResult_right (lim := lim + 2) (T := RelOutcome (InUse M)) (f := .set) (getSpecifier_rel henv i)
      (fun s t h => convert_right hQ hcan h) (fun x y h => h)
    refine this.mono fun r hr => ?_
    simp only [run, call, returns, Library.plain]
    cases hb : getSpecifier env' i <;> rw [hb] at hr <;> exact hr
  | fromSet i =>
    have := onResult_right (lim := lim + 2) (T := RelOutcome (InUse M)) (f := .specifier) (getSet_rel henv i)
      (fun s t h => express_right (lim + 2) h) (fun x y h => h)
    refine this.mono fun r hr => ?_
    simp only [run, call, returns, Library.plain]
    cases hb : getSet env' i <;> rw [hb] at hr <;> exact hr
  | simplify i =>
    have := onResult_right (lim := lim + 2) (T := RelOutcome (InUse M)) (f := .specifier) (getSpecifier_rel henv i)
      (fun s t h => Task.Right.andThen (convert_right (lim := lim) hQ hcan h) (g := Specifier.fromSet (lim + 2)) rfl fun x y h => express_right (lim + 2) h)
      (fun x y h => h)
    refine this.mono fun r hr => ?_
    simp only [run, call, returns, Library.plain]
    cases hb : getSpecifier env' i <;> rw [hb] at hr
    · exact hr
    · rename_i t
      dsimp only [Except.bind] at hr ⊢
      cases ht : t.toSet (lim + 2) <;> rw [ht] at hr <;> exact hr
  | _ => exact hpure

theorem thread_right (lim : Nat) {M : Operator → Prop}
    (hM : ∀ o p, M o → M p → o.eq p = true → o.type.SameReading o.version p.version) (program : List Statement) :
    ∀ {env env' : List Result}, List.Forall₂ (Related (InUse M)) env env' →
      (∀ s, .ok (.specifier s) ∈ runFrom (.plain (lim + 2)) (lim + 2) env' () program → ∀ o, s.Uses o → M o) →
      (∀ string s, .parseVersionSet string ∈ program → Specifier.parse string = .ok s → ∀ o, s.Uses o → M o) →
      (thread (lim + 2) env program).Right (lim + 2) (InUse M)
        (fun rs => List.Forall₂ (Related (InUse M)) rs (runFrom (.plain (lim + 2)) (lim + 2) env' () program)) := by
  induction program with
  | nil => exact fun h _ _ => h
  | cons st rest ih =>
    intro env env' henv hmade hread
    refine (statement_right lim hM henv st
      ⟨fun s hs o ho => hmade s (mem_runFrom _ _ rest _ _ (List.mem_append_right _ (by rw [hs]; exact List.mem_singleton_self _))) o ho,
        fun string s he hs o ho => hread string s (by simp [he]) hs o ho⟩).bind fun r hr => ?_
    exact ih (List.rel_append henv (.cons hr .nil)) hmade (fun string s hm => hread string s (by simp [hm]))

/-! ### schedules -/

theorem step_right {hash : PyStr → Int} {H : Hasher} {lim : Nat} {Q : Operator → Prop} (hQ : Alike Q)
    (hcan : ∀ o, Q o → o.version.Canonical) {γ : Type}
    {R : γ → Prop} {t : Task γ} (ht : t.Right (lim + 2) Q R) {m : Memory} (hm : m.Ok (lim + 2) Q) :
    (t.step hash H m).1.Right (lim + 2) Q R ∧ (t.step hash H m).2.Ok (lim + 2) Q := by
  cases t with
  | done r => exact ⟨ht, hm⟩
  | lookup k next =>
    refine ⟨?_, hm⟩
    simp only [Task.step]
    cases hf : m.find? (fun e => e.1.fits hash H k) with
    | none => exact ht.2.2
    | some e =>
      obtain ⟨h1, h2⟩ := hm e (List.mem_of_find?_eq_some hf)
      exact ht.2.1 _ (h2.congr hQ hcan (by simpa using List.find?_some hf) h1 ht.1)
  | store k v next =>
    refine ⟨ht.2.2, fun e he => ?_⟩
    rcases List.mem_cons.1 he with rfl | he
    · exact ⟨ht.1, ht.2.1⟩
    · exact hm e he

theorem schedule_right {hash : PyStr → Int} {H : Hasher} {lim : Nat} {Q : Operator → Prop} (hQ : Alike Q)
    (hcan : ∀ o, Q o → o.version.Canonical) {γ : Type}
    {R : Nat → γ → Prop} (steps : List Nat) : ∀ {ts : List (Task γ)} {m : Memory},
    (∀ (i : Nat) (t : Task γ), ts[i]? = some t → t.Right (lim + 2) Q (R i)) → m.Ok (lim + 2) Q →
    ∀ (i : Nat) (t : Task γ), (Task.schedule hash H steps ts m).1[i]? = some t → t.Right (lim + 2) Q (R i) := by
  induction steps with
  | nil => exact fun h _ => h
  | cons j steps ih =>
    intro ts m h hm
    have : (∀ (i : Nat) (t : Task γ), (Task.stepAt hash H j ts m).1[i]? = some t → t.Right (lim + 2) Q (R i)) ∧
        (Task.stepAt hash H j ts m).2.Ok (lim + 2) Q := by
      unfold Task.stepAt
      cases hj : ts[j]? with
      | none => exact ⟨h, hm⟩
      | some t =>
        obtain ⟨h1, h2⟩ := step_right (hash := hash) (H := H) hQ hcan (h j t hj) hm
        refine ⟨fun i u hu => ?_, h2⟩
        rw [List.getElem?_set] at hu
        split at hu
        · next hij =>
          subst hij
          split at hu
          · cases hu; exact h1
          · cases hu
        · exact h i u hu
    exact ih this.1 this.2

theorem related_same {Q : Operator → Prop} (hQ : Alike Q) {a b : Result} (hab : Related Q a b) : SameResult a b := by
  rcases a with e | a <;> rcases b with f | b <;> try first | exact hab | exact hab.elim
  cases a <;> cases b <;> try first | exact hab.elim
  · exact hab.1
  · exact ⟨hab.1, hQ.accepts hab.2.1 hab.2.2 hab.1⟩
  · exact ⟨(eq_iff_cov hab.1.1 hab.1.2.1).2 hab.1.2.2, hab.1.contains⟩
  · exact hab

/-- The threads of some programs and the caches, after the steps of a schedule, starting with empty caches. -/
abbrev threadsAfter (hash : PyStr → Int) (H : Hasher) (lim : Nat) (programs : List (List Statement)) (steps : List Nat) :
    List (Task (List Result)) × Memory :=
  Task.schedule hash H steps (programs.map (thread lim [])) []

/-- C97. Programs run in threads of one process, which take turns in any way between the lookups and stores of the caches.
Whenever a thread is through, each of its statements gave what it gives without caches and without the other threads: the same
exception, the same version or truth value, or an equal specifier or set that accepts or contains the same versions, if of any
two equal operators that the programs make the same parts matter. -/
theorem C97_threads (hash : PyStr → Int) (H : Hasher) (lim : Nat) (programs : List (List Statement))
    (h : ∀ P ∈ programs, ∀ P' ∈ programs, ∀ o p, Makes (lim + 2) P o → Makes (lim + 2) P' p → o.eq p = true →
      o.type.SameReading o.version p.version) (steps : List Nat) (i : Nat) (program : List Statement)
    (hi : programs[i]? = some program) (results : List Result)
    (hr : (threadsAfter hash H (lim + 2) programs steps).1[i]? = some (.done results)) :
    List.Forall₂ SameResult results (reference (lim + 2) program) := by
  have hM : ∀ o p, (∃ P ∈ programs, Makes (lim + 2) P o) → (∃ P ∈ programs, Makes (lim + 2) P p) → o.eq p = true →
      o.type.SameReading o.version p.version := by
    rintro o p ⟨P, hP, ho⟩ ⟨P', hP', hp⟩
    exact h P hP P' hP' o p ho hp
  have hQ := inUse_alike hM
  have := schedule_right (hash := hash) (H := H) (lim := lim) hQ (fun o ho => ho.1.2)
    (R := fun i rs => ∀ P, programs[i]? = some P → List.Forall₂ SameResult rs (reference (lim + 2) P))
    steps (ts := programs.map (thread (lim + 2) [])) (m := []) (fun j t hj => ?_) (by intro e he; cases he) i _ hr
  · exact this program hi
  · rw [List.getElem?_map, Option.map_eq_some_iff] at hj
    obtain ⟨P, hP, rfl⟩ := hj
    have hmem := List.mem_of_getElem? hP
    refine (thread_right lim hM P .nil (fun s hs o ho => ⟨P, hmem, .inl ⟨s, hs, ho⟩⟩)
      (fun string s hm hs o ho => ⟨P, hmem, .inr ⟨string, s, hm, hs, ho⟩⟩)).mono fun rs hrs P' hP' => ?_
    rw [hP] at hP'
    cases hP'
    exact hrs.imp fun a b hab => related_same hQ hab

/-- Two threads read the set of `~=1.0` and take turns: both look before either stores, and both convert. -/
example (H : Hasher) : ∃ a b, (threadsAfter (fun _ => 0) H 7 [[.parseVersionSet "~=1.0".toList],
      [.parseSpecifier "~=1.0".toList, .toSet 0]] [0, 1, 0, 1, 1, 0, 1, 0]).1 = [.done a, .done b] ∧
    List.Forall₂ SameResult a [.ok (.set (.item (exRange (some [1, 0]) (some [2, 0]))))] ∧
    List.Forall₂ SameResult b [.ok (.specifier (.one ⟨.tildeEqual, exVersion [1, 0]⟩)),
      .ok (.set (.item (exRange (some [1, 0]) (some [2, 0]))))] := by
  have p1 : Specifier.parse "~=1.0".toList = .ok (.one ⟨.tildeEqual, exVersion [1, 0]⟩) := by rfl
  have r1 : reference 7 [.parseVersionSet "~=1.0".toList] = [.ok (.set (.item (exRange (some [1, 0]) (some [2, 0]))))] := by rfl
  have r2 : reference 7 [.parseSpecifier "~=1.0".toList, .toSet 0] = [.ok (.specifier (.one ⟨.tildeEqual, exVersion [1, 0]⟩)),
      .ok (.set (.item (exRange (some [1, 0]) (some [2, 0]))))] := by rfl
  have hm : ∀ P ∈ [[Statement.parseVersionSet "~=1.0".toList], [.parseSpecifier "~=1.0".toList, .toSet 0]], ∀ o, Makes 7 P o →
      o = ⟨.tildeEqual, exVersion [1, 0]⟩ := by
    intro P hP o ho
    simp only [List.mem_cons, List.not_mem_nil, or_false] at hP
    rcases hP with rfl | rfl <;> rcases ho with ⟨s, hs, ho⟩ | ⟨string, s, hs, hp, ho⟩
    · rw [r1] at hs
      simp at hs
    · simp only [List.mem_cons, Statement.parseVersionSet.injEq, List.not_mem_nil, or_false] at hs
      subst hs
      rw [p1] at hp
      cases hp
      cases ho; rfl
    · rw [r2] at hs
      simp only [List.mem_cons, Except.ok.injEq, Outcome.specifier.injEq, reduceCtorEq, List.not_mem_nil, or_false] at hs
      subst hs
      cases ho; rfl
    · simp at hs
  have key := C97_threads (fun _ => 0) H 5 [[.parseVersionSet "~=1.0".toList], [.parseSpecifier "~=1.0".toList, .toSet 0]]
    (fun P hP P' hP' o p ho hp _ => by rw [hm P hP o ho, hm P' hP' p hp]; unfold OpType.SameReading; rfl)
    [0, 1, 0, 1, 1, 0, 1, 0]
  obtain ⟨a, b, hab⟩ : ∃ a b, (threadsAfter (fun _ => 0) H 7 [[.parseVersionSet "~=1.0".toList],
      [.parseSpecifier "~=1.0".toList, .toSet 0]] [0, 1, 0, 1, 1, 0, 1, 0]).1 = [.done a, .done b] := ⟨_, _, by rfl⟩
  exact ⟨a, b, hab, r1 ▸ key 0 _ rfl a (by rw [hab]; rfl), r2 ▸ key 1 _ rfl b (by rw [hab]; rfl)⟩

/-! ### every thread gets through -/

theorem schedule_append {hash : PyStr → Int} {H : Hasher} {γ : Type} (a b : List Nat) : ∀ (ts : List (Task γ)) (m : Memory),
    Task.schedule hash H (a ++ b) ts m =
      Task.schedule hash H b (Task.schedule hash H a ts m).1 (Task.schedule hash H a ts m).2 := by
  induction a with
  | nil => exact fun _ _ => rfl
  | cons i a ih => exact fun ts m => ih _ _

theorem stepAt_self {hash : PyStr → Int} {H : Hasher} {γ : Type} {i : Nat} {ts : List (Task γ)} {t : Task γ} (h : ts[i]? = some t)
    (m : Memory) : (Task.stepAt hash H i ts m).1[i]? = some (t.step hash H m).1 := by
  have hi : i < ts.length := (List.getElem?_eq_some_iff.1 h).1
  simp only [Task.stepAt, h]
  simp [hi]

theorem stepAt_other {hash : PyStr → Int} {H : Hasher} {γ : Type} {i j : Nat} (hij : j ≠ i) (ts : List (Task γ)) (m : Memory) :
    (Task.stepAt hash H j ts m).1[i]? = ts[i]? := by
  unfold Task.stepAt
  cases ts[j]? with
  | none => rfl
  | some t => simp [hij]

/-- The first `n` turns of an endless schedule. -/
def firstTurns (turns : Nat → Nat) (n : Nat) : List Nat := (List.range n).map turns

theorem schedule_done {hash : PyStr → Int} {H : Hasher} {γ : Type} (t : Task γ) : ∀ (turns : Nat → Nat) (i : Nat)
    (_ : ∀ n, ∃ k, n ≤ k ∧ turns k = i) (ts : List (Task γ)) (m : Memory), ts[i]? = some t →
    ∃ n r, (Task.schedule hash H (firstTurns turns n) ts m).1[i]? = some (.done r) := by
  -- after the next turn of thread `i`, it has made one step, whatever the others did
  have next : ∀ (k : Nat) (turns : Nat → Nat) (i : Nat), turns k = i → ∀ (ts : List (Task γ)) (m : Memory) (t : Task γ),
      ts[i]? = some t → ∃ n m', (Task.schedule hash H (firstTurns turns (n + 1)) ts m).1[i]? = some (t.step hash H m').1 := by
    intro k
    induction k with
    | zero =>
      intro turns i hi ts m t ht
      refine ⟨0, m, ?_⟩
      simp only [Nat.zero_add, firstTurns, List.range_one, List.map_cons, List.map_nil, Task.schedule, hi]
      exact stepAt_self ht m
    | succ k ih =>
      intro turns i hi ts m t ht
      by_cases h0 : turns 0 = i
      · refine ⟨0, m, ?_⟩
        simp only [Nat.zero_add, firstTurns, List.range_one, List.map_cons, List.map_nil, Task.schedule, h0]
        exact stepAt_self ht m
      · obtain ⟨n, m', h⟩ := ih (fun j => turns (j + 1)) i hi (Task.stepAt hash H (turns 0) ts m).1
          (Task.stepAt hash H (turns 0) ts m).2 t (by rw [stepAt_other h0]; exact ht)
        refine ⟨n + 1, m', ?_⟩
        rw [firstTurns, List.range_succ_eq_map, List.map_cons, List.map_map]
        exact h
  have split : ∀ (turns : Nat → Nat) (a b : Nat), firstTurns turns (a + b) = firstTurns turns a ++ firstTurns (fun j => turns (a + j)) b := by
    intro turns a b
    simp only [firstTurns, List.range_add, List.map_append, List.map_map]
    rfl
  have go : ∀ (t : Task γ), (∀ m', ∀ (turns : Nat → Nat) (i : Nat) (_ : ∀ n, ∃ k, n ≤ k ∧ turns k = i) (ts : List (Task γ)) (m : Memory),
      ts[i]? = some (t.step hash H m').1 → ∃ n r, (Task.schedule hash H (firstTurns turns n) ts m).1[i]? = some (.done r)) →
      ∀ (turns : Nat → Nat) (i : Nat) (_ : ∀ n, ∃ k, n ≤ k ∧ turns k = i) (ts : List (Task γ)) (m : Memory), ts[i]? = some t →
        ∃ n r, (Task.schedule hash H (firstTurns turns n) ts m).1[i]? = some (.done r) := by
    intro t ih turns i hfair ts m ht
    obtain ⟨k, -, hk⟩ := hfair 0
    obtain ⟨n, m', h⟩ := next k turns i hk ts m t ht
    obtain ⟨n', r, h'⟩ := ih m' (fun j => turns (n + 1 + j)) i (fun a => by
      obtain ⟨k, h1, h2⟩ := hfair (n + 1 + a)
      exact ⟨k - (n + 1), by omega, by rw [show n + 1 + (k - (n + 1)) = k by omega]; exact h2⟩) _
      (Task.schedule hash H (firstTurns turns (n + 1)) ts m).2 h
    exact ⟨n + 1 + n', r, by rw [split, schedule_append]; exact h'⟩
  induction t with
  | done r => exact fun turns i _ ts m ht => ⟨0, r, ht⟩
  | lookup k next' ih => exact go _ fun m' => ih _
  | store k v next' ih => exact go _ fun m' => ih

/-- C97. A thread that gets turns again and again gets through, whatever the other threads do. -/
theorem C97_through (hash : PyStr → Int) (H : Hasher) (lim : Nat) (programs : List (List Statement)) (turns : Nat → Nat) (i : Nat)
    (hi : i < programs.length) (hfair : ∀ n, ∃ k, n ≤ k ∧ turns k = i) :
    ∃ n results, (threadsAfter hash H lim programs (firstTurns turns n)).1[i]? = some (.done results) :=
  schedule_done (thread lim [] programs[i]) turns i hfair _ [] (by simp [hi])

/-- With two threads that take turns one by one, the second is through after some turns. -/
example (hash : PyStr → Int) (H : Hasher) : ∃ n results, (threadsAfter hash H 7 [[.parseVersionSet "^0".toList],
    [.parseVersionSet "^0.0".toList, .complement 0]] (firstTurns (· % 2) n)).1[1]? = some (.done results) :=
  C97_through hash H 7 _ _ 1 (by decide) fun n => ⟨2 * n + 1, by omega, by omega⟩

/-! ### one thread alone -/

/-- The entries of the five caches. -/
def Memory.process (m : Memory) : Process where
  versions := m.filterMap fun | (.version s, .version v) => some (s, v) | _ => none
  specifiers := m.filterMap fun | (.specifier s, .specifier t) => some (s, t) | _ => none
  sets := {
    parsed := m.filterMap fun | (.versionSet s, .set x) => some (s, x) | _ => none
    converted := m.filterMap fun | (.toSet t, .set x) => some (t, x) | _ => none }
  back := m.filterMap fun | (.fromSet x, .specifier t) => some (x, t) | _ => none

/-- Values of the type that the function returns. -/
def Key.Typed : Key → Stored → Prop
  | .version _, .version _ | .specifier _, .specifier _ | .versionSet _, .set _ | .toSet _, .set _ | .fromSet _, .specifier _ => True
  | _, _ => False

def Memory.Typed (m : Memory) : Prop := ∀ e ∈ m, e.1.Typed e.2

section
variable {hash : PyStr → Int} {H : Hasher} {γ δ : Type}

/-- The task, alone, does to the caches what `f` does. -/
def Task.Does (hash : PyStr → Int) (H : Hasher) (t : Task γ) (f : Process → γ × Process) : Prop :=
  ∀ m : Memory, m.Typed → f m.process = ((t.alone hash H m).1, (t.alone hash H m).2.process) ∧ (t.alone hash H m).2.Typed

theorem alone_bind (t : Task γ) (f : γ → Task δ) : ∀ m : Memory,
    (t.bind f).alone hash H m = (f (t.alone hash H m).1).alone hash H (t.alone hash H m).2 := by
  induction t with
  | done r => exact fun _ => rfl
  | lookup k next ih => exact fun m => ih _ _
  | store k v next ih => exact fun m => ih _

theorem Task.does_done (r : γ) : (Task.done r).Does hash H (fun p => (r, p)) := fun _ hm => ⟨rfl, hm⟩

/-- A cache of the process, as part of the memory. -/
structure Slot (hash : PyStr → Int) (H : Hasher) (α β : Type) where
  key : α → Key
  put : β → Stored
  get : Stored → Option β
  code : α → Int
  same : α → α → Bool
  read : Process → Cache α β
  write : Process → Cache α β → Process
  get_put : ∀ b, get (put b) = some b
  fits : ∀ a a', (key a).fits hash H (key a') = (decide (code a = code a') && same a a')
  cons : ∀ a b m, (Memory.process ((key a, put b) :: m)) = write (Memory.process m) ((a, b) :: read (Memory.process m))
  split : ∀ (e : Key × Stored) (m : Memory), e.1.Typed e.2 → (∃ a b, e = (key a, put b)) ∨
    ((∀ a, e.1.fits hash H (key a) = false) ∧ read (Memory.process (e :: m)) = read (Memory.process m))
  read_nil : read (Memory.process []) = []
  read_write : ∀ p c, read (write p c) = c
  typed : ∀ a b, (key a).Typed (put b)
  write_write : ∀ p c d, write (write p c) d = write p d
  write_read : ∀ p, write p (read p) = p

variable {α β : Type} (S : Slot hash H α β)

theorem Slot.find (a : α) : ∀ m : Memory, m.Typed → ((m.find? (fun e => e.1.fits hash H (S.key a))).map (·.2)).bind S.get =
    ((S.read m.process).find? (fun e => decide (S.code e.1 = S.code a) && S.same e.1 a)).map (·.2) := by
  intro m
  induction m with
  | nil => intro _; rw [S.read_nil]; rfl
  | cons e m ih =>
    intro hm
    have hm' : Memory.Typed m := fun e he => hm e (by simp [he])
    rcases S.split e m (hm e (by simp)) with ⟨a', b, rfl⟩ | ⟨h1, h2⟩
    · rw [S.cons, S.read_write, List.find?_cons, List.find?_cons]
      dsimp only
      rw [S.fits]
      cases decide (S.code a' = S.code a) && S.same a' a
      · exact ih hm'
      · exact S.get_put b
    · rw [h2, List.find?_cons, h1]
      exact ih hm'

/-- What a computation with one cache does to the process. -/
def Slot.lift (f : Cached α β γ) (p : Process) : Except PyErr γ × Process := ((f (S.read p)).1, S.write p (f (S.read p)).2)

theorem Slot.does_done (r : Except PyErr γ) : (Task.done r).Does hash H (S.lift (.pure r)) := by
  intro m hm
  exact ⟨by simp only [Slot.lift, Cached.pure, S.write_read]; rfl, hm⟩

theorem Slot.does_andThen {t : Task (Except PyErr γ)} {f : Cached α β γ} (h : t.Does hash H (S.lift f))
    {g : γ → Task (Except PyErr δ)} {g' : γ → Cached α β δ} (hg : ∀ r, (g r).Does hash H (S.lift (g' r))) :
    (t.andThen g).Does hash H (S.lift (f.andThen g')) := by
  intro m hm
  obtain ⟨h1, h2⟩ := h m hm
  unfold Task.andThen
  rw [alone_bind]
  simp only [Slot.lift, Prod.mk.injEq] at h1
  obtain ⟨h1, h3⟩ := h1
  generalize t.alone hash H m = q at h1 h2 h3
  obtain ⟨r, m'⟩ := q
  simp only at h1 h2 h3
  have e : f (S.read m.process) = (r, S.read m'.process) := by rw [← h3, S.read_write, ← h1]
  cases r with
  | error x => exact ⟨by simp only [Slot.lift, Cached.andThen, e]; rw [← show (f (S.read m.process)).2 = S.read m'.process by rw [e], h3]; rfl, h2⟩
  | ok x =>
    obtain ⟨h4, h5⟩ := hg x m' h2
    refine ⟨?_, h5⟩
    simp only [Slot.lift, Cached.andThen, e] at h4 ⊢
    rw [← h4, ← h3, S.write_write, S.read_write]

theorem Slot.does_call {t : Task (Except PyErr β)} {f : Cached α β β} (h : t.Does hash H (S.lift f)) (a : α) :
    (Task.call (S.key a) S.get S.put t).Does hash H (S.lift (.wrap S.code S.same a f)) := by
  intro m hm
  have hf := S.find a m hm
  simp only [Task.call, Task.alone, Slot.lift, Cached.wrap]
  rw [hf]
  cases hc : (S.read m.process).find? (fun e => decide (S.code e.1 = S.code a) && S.same e.1 a) with
  | some e => exact ⟨by simp only [Option.map_some, S.write_read]; rfl, hm⟩
  | none =>
    obtain ⟨h1, h2⟩ := h m hm
    simp only [Slot.lift, Prod.mk.injEq] at h1
    obtain ⟨h1, h3⟩ := h1
    dsimp only [Option.map_none, Task.andThen]
    rw [alone_bind]
    generalize t.alone hash H m = q at h1 h2 h3
    obtain ⟨r, m'⟩ := q
    simp only at h1 h2 h3
    have e : f (S.read m.process) = (r, S.read m'.process) := by rw [← h3, S.read_write, ← h1]
    cases r with
    | error x => exact ⟨by simp only [e]; rw [← show (f (S.read m.process)).2 = S.read m'.process by rw [e], h3]; rfl, h2⟩
    | ok x =>
      refine ⟨?_, ?_⟩
      · simp only [e, Task.alone]
        rw [S.cons, ← h3, S.write_write, S.read_write]
      · intro z hz
        rcases List.mem_cons.1 hz with rfl | hz
        · exact S.typed a x
        · exact h2 z hz
end

section
variable (hash : PyStr → Int) (H : Hasher)

def slotVersions : Slot hash H PyStr Version where
  key := .version
  put := .version
  get := Stored.toVersion?
  code := hash
  same a b := decide (a = b)
  read := Process.versions
  write p c := { p with versions := c }
  get_put _ := rfl
  fits _ _ := rfl
  cons _ _ _ := rfl
  split e m h := by
    obtain ⟨k, v⟩ := e
    cases k <;> cases v <;> first | exact h.elim | exact .inl ⟨_, _, rfl⟩ | exact .inr ⟨fun _ => rfl, rfl⟩
  read_nil := rfl
  read_write _ _ := rfl
  typed _ _ := trivial
  write_write _ _ _ := rfl
  write_read _ := rfl

def slotSpecifiers : Slot hash H PyStr Specifier where
  key := .specifier
  put := .specifier
  get := Stored.toSpecifier?
  code := hash
  same a b := decide (a = b)
  read := Process.specifiers
  write p c := { p with specifiers := c }
  get_put _ := rfl
  fits _ _ := rfl
  cons _ _ _ := rfl
  split e m h := by
    obtain ⟨k, v⟩ := e
    cases k <;> cases v <;> first | exact h.elim | exact .inl ⟨_, _, rfl⟩ | exact .inr ⟨fun _ => rfl, rfl⟩
  read_nil := rfl
  read_write _ _ := rfl
  typed _ _ := trivial
  write_write _ _ _ := rfl
  write_read _ := rfl

def slotParsed : Slot hash H PyStr VSet where
  key := .versionSet
  put := .set
  get := Stored.toSet?
  code := hash
  same a b := decide (a = b)
  read p := p.sets.parsed
  write p c := { p with sets := { p.sets with parsed := c } }
  get_put _ := rfl
  fits _ _ := rfl
  cons _ _ _ := rfl
  split e m h := by
    obtain ⟨k, v⟩ := e
    cases k <;> cases v <;> first | exact h.elim | exact .inl ⟨_, _, rfl⟩ | exact .inr ⟨fun _ => rfl, rfl⟩
  read_nil := rfl
  read_write _ _ := rfl
  typed _ _ := trivial
  write_write _ _ _ := rfl
  write_read _ := rfl

def slotConverted : Slot hash H Specifier VSet where
  key := .toSet
  put := .set
  get := Stored.toSet?
  code := H.specifier
  same := Specifier.eq
  read p := p.sets.converted
  write p c := { p with sets := { p.sets with converted := c } }
  get_put _ := rfl
  fits _ _ := rfl
  cons _ _ _ := rfl
  split e m h := by
    obtain ⟨k, v⟩ := e
    cases k <;> cases v <;> first | exact h.elim | exact .inl ⟨_, _, rfl⟩ | exact .inr ⟨fun _ => rfl, rfl⟩
  read_nil := rfl
  read_write _ _ := rfl
  typed _ _ := trivial
  write_write _ _ _ := rfl
  write_read _ := rfl

def slotBack : Slot hash H VSet Specifier where
  key := .fromSet
  put := .specifier
  get := Stored.toSpecifier?
  code := H.vset
  same := VSet.eq
  read := Process.back
  write p c := { p with back := c }
  get_put _ := rfl
  fits _ _ := rfl
  cons _ _ _ := rfl
  split e m h := by
    obtain ⟨k, v⟩ := e
    cases k <;> cases v <;> first | exact h.elim | exact .inl ⟨_, _, rfl⟩ | exact .inr ⟨fun _ => rfl, rfl⟩
  read_nil := rfl
  read_write _ _ := rfl
  typed _ _ := trivial
  write_write _ _ _ := rfl
  write_read _ := rfl

theorem reduceAllTask_does (lim : Nat) {l : List Specifier}
    (ih : ∀ s ∈ l, (s.toSetTask lim).Does hash H ((slotConverted hash H).lift (s.toSetCached H lim))) :
    ∀ x, (reduceAllTask lim x l).Does hash H ((slotConverted hash H).lift (reduceAllCached H lim x l)) := by
  induction l with
  | nil => intro x; rw [reduceAllTask, reduceAllCached]; exact (slotConverted hash H).does_done _
  | cons s l ihl =>
    intro x
    rw [reduceAllTask, reduceAllCached]
    exact (slotConverted hash H).does_andThen (ih s (by simp)) fun y => (slotConverted hash H).does_andThen
      ((slotConverted hash H).does_done _) fun z => ihl (fun t ht => ih t (by simp [ht])) z

theorem reduceAnyTask_does (lim : Nat) {l : List Specifier}
    (ih : ∀ s ∈ l, (s.toSetTask lim).Does hash H ((slotConverted hash H).lift (s.toSetCached H lim))) :
    ∀ x, (reduceAnyTask lim x l).Does hash H ((slotConverted hash H).lift (reduceAnyCached H lim x l)) := by
  induction l with
  | nil => intro x; rw [reduceAnyTask, reduceAnyCached]; exact (slotConverted hash H).does_done _
  | cons s l ihl =>
    intro x
    rw [reduceAnyTask, reduceAnyCached]
    exact (slotConverted hash H).does_andThen (ih s (by simp)) fun y => (slotConverted hash H).does_andThen
      ((slotConverted hash H).does_done _) fun z => ihl (fun t ht => ih t (by simp [ht])) z

theorem toSetTask_does (lim : Nat) : ∀ s : Specifier, (s.toSetTask lim).Does hash H ((slotConverted hash H).lift (s.toSetCached H lim))
  | .one o => by
    rw [toSetTask.eq_def, toSetCached.eq_def]
    exact (slotConverted hash H).does_call ((slotConverted hash H).does_done _) _
  | .never => by
    rw [toSetTask.eq_def, toSetCached.eq_def]
    exact (slotConverted hash H).does_call ((slotConverted hash H).does_done _) _
  | .always => by
    rw [toSetTask.eq_def, toSetCached.eq_def]
    exact (slotConverted hash H).does_call ((slotConverted hash H).does_done _) _
  | .all [] => by
    rw [toSetTask.eq_def, toSetCached.eq_def]
    exact (slotConverted hash H).does_call ((slotConverted hash H).does_done _) _
  | .any [] => by
    rw [toSetTask.eq_def, toSetCached.eq_def]
    exact (slotConverted hash H).does_call ((slotConverted hash H).does_done _) _
  | .all (s :: l) => by
    rw [toSetTask.eq_def, toSetCached.eq_def]
    exact (slotConverted hash H).does_call ((slotConverted hash H).does_andThen (toSetTask_does lim s)
      (reduceAllTask_does hash H lim fun t _ => toSetTask_does lim t)) _
  | .any (s :: l) => by
    rw [toSetTask.eq_def, toSetCached.eq_def]
    exact (slotConverted hash H).does_call ((slotConverted hash H).does_andThen (toSetTask_does lim s)
      (reduceAnyTask_does hash H lim fun t _ => toSetTask_does lim t)) _

theorem fromItemTask_does (i : Item) : (fromItemTask i).Does hash H ((slotBack hash H).lift (fromItemCached H i)) :=
  (slotBack hash H).does_call ((slotBack hash H).does_done _) (.item i)

theorem fromItemsTask_does : ∀ l : List Item, (fromItemsTask l).Does hash H ((slotBack hash H).lift (fromItemsCached H l))
  | [] => (slotBack hash H).does_done _
  | i :: l => (slotBack hash H).does_andThen (fromItemTask_does hash H i) fun _ =>
      (slotBack hash H).does_andThen (fromItemsTask_does l) fun _ => (slotBack hash H).does_done _

theorem fromSetTask_does (lim : Nat) (x : VSet) : (fromSetTask lim x).Does hash H ((slotBack hash H).lift (fromSetCached H lim x)) := by
  cases x with
  | empty => exact (slotBack hash H).does_call ((slotBack hash H).does_done _) VSet.empty
  | item i => exact fromItemTask_does hash H i
  | union items =>
    refine (slotBack hash H).does_call ((slotBack hash H).does_andThen ((slotBack hash H).does_done _) fun o => ?_) (VSet.union items)
    cases o with
    | some s => exact (slotBack hash H).does_done _
    | none => exact (slotBack hash H).does_andThen (fromItemsTask_does hash H items) fun ts => (slotBack hash H).does_done _

theorem versionSetTask_does (lim : Nat) (s : PyStr) :
    (versionSetTask lim s).Does hash H ((Library.cached hash H lim).parseVersionSet s) := by
  intro m hm
  have hf : ((m.find? (fun e => e.1.fits hash H (.versionSet s))).map (·.2)).bind Stored.toSet? =
    (m.process.sets.parsed.find? (fun e => decide (hash e.1 = hash s) && decide (e.1 = s))).map (·.2) :=
    (slotParsed hash H).find s m hm
  unfold versionSetTask Task.call
  simp only [Task.alone, Library.cached, Verif.parseVersionSet]
  cases hc : m.process.sets.parsed.find? (fun e => decide (hash e.1 = hash s) && decide (e.1 = s)) with
  | some e =>
    rw [hc] at hf
    rw [hf]
    exact ⟨rfl, hm⟩
  | none =>
    rw [hc] at hf
    rw [hf]
    cases hp : Specifier.parse s with
    | error e => exact ⟨rfl, hm⟩
    | ok t =>
      obtain ⟨h1, h2⟩ := toSetTask_does hash H lim t m hm
      simp only [Slot.lift, slotConverted, Prod.mk.injEq] at h1
      obtain ⟨h1, h3⟩ := h1
      dsimp only [Option.map_none, Task.andThen, Task.bind, convertCall]
      rw [alone_bind]
      generalize (t.toSetTask lim).alone hash H m = q at h1 h2 h3
      obtain ⟨r, m'⟩ := q
      simp only at h1 h2 h3
      generalize t.toSetCached H lim m.process.sets.converted = w at h1 h3
      obtain ⟨w1, w2⟩ := w
      simp only at h1 h3
      subst h1
      cases w1 with
      | error e => exact ⟨by simp only [Task.alone]; rw [h3], h2⟩
      | ok x =>
        refine ⟨?_, ?_⟩
        · simp only [Task.alone]
          rw [show Memory.process ((Key.versionSet s, Stored.set x) :: m') = (slotParsed hash H).write m'.process
            ((s, x) :: (slotParsed hash H).read m'.process) from rfl, ← h3]
          rfl
        · intro z hz
          rcases List.mem_cons.1 hz with rfl | hz
          · trivial
          · exact h2 z hz

theorem does_map {α : Type} {t : Task (Except PyErr α)} {f : Process → Except PyErr α × Process} (h : t.Does hash H f) (g : α → Outcome) :
    (t.bind fun r => .done (r.map g)).Does hash H (fun p => returns g (f p)) := by
  intro m hm
  obtain ⟨h1, h2⟩ := h m hm
  rw [alone_bind]
  exact ⟨by dsimp only; rw [h1]; rfl, h2⟩

theorem statement_does (lim : Nat) (env : List Result) (st : Statement) :
    (st.task lim env).Does hash H (fun p => st.run (.cached hash H lim) lim env p) := by
  cases st with
  | parseVersion s => exact does_map hash H ((slotVersions hash H).does_call ((slotVersions hash H).does_done _) s) .version
  | parseSpecifier s => exact does_map hash H ((slotSpecifiers hash H).does_call ((slotSpecifiers hash H).does_done _) s) .specifier
  | parseVersionSet s => exact does_map hash H (versionSetTask_does hash H lim s) .set
  | toSet i =>
    simp only [task, onResult, run]
    cases getSpecifier env i with
    | error e => exact Task.does_done _
    | ok t => exact does_map hash H (toSetTask_does hash H lim t) .set
  | fromSet i =>
    simp only [task, onResult, run]
    cases getSet env i with
    | error e => exact Task.does_done _
    | ok x => exact does_map hash H (fromSetTask_does hash H lim x) .specifier
  | simplify i =>
    simp only [task, onResult, run]
    cases getSpecifier env i with
    | error e => exact Task.does_done _
    | ok t =>
      intro m hm
      obtain ⟨h1, h2⟩ := toSetTask_does hash H lim t m hm
      have h1 : (Library.cached hash H lim).toSet t m.process = _ := h1
      dsimp only [Task.andThen, Task.bind, call]
      rw [alone_bind, alone_bind]
      rw [h1]
      generalize (t.toSetTask lim).alone hash H m = q at h1 h2
      obtain ⟨r, m'⟩ := q
      cases r with
      | error e => exact ⟨rfl, h2⟩
      | ok x =>
        obtain ⟨h3, h4⟩ := fromSetTask_does hash H lim x m' h2
        have h3 : (Library.cached hash H lim).fromSet x m'.process = _ := h3
        exact ⟨by dsimp only; rw [h3]; rfl, h4⟩
  | _ => exact Task.does_done _
end

/-- C97. A thread without others does what the program does in a process of its own (C96): the same results. -/
theorem C97_alone (hash : PyStr → Int) (H : Hasher) (lim : Nat) (program : List Statement) :
    ((thread lim [] program).alone hash H []).1 = session hash H lim program := by
  have : ∀ (program : List Statement) (env : List Result) (m : Memory), m.Typed →
      ((thread lim env program).alone hash H m).1 = runFrom (.cached hash H lim) lim env m.process program := by
    intro program
    induction program with
    | nil => exact fun _ _ _ => rfl
    | cons st rest ih =>
      intro env m hm
      obtain ⟨h1, h2⟩ := statement_does hash H lim env st m hm
      dsimp only at h1
      simp only [thread, runFrom]
      rw [alone_bind, ih _ _ h2, h1]
  exact this program [] [] (by intro e he; cases he)

example (hash : PyStr → Int) (H : Hasher) :
    ((thread 7 [] [.parseVersionSet "^0".toList, .parseVersionSet "^0.0".toList]).alone hash H []).1 =
      session hash H 7 [.parseVersionSet "^0".toList, .parseVersionSet "^0.0".toList] := C97_alone hash H 7 _

/-- C97. Which spelling of equal sets a thread gets may depend on the turns: of two threads that read the sets of strings `== a`
and `== b`, with `b` equal to `a`, the second gets `b` if it goes first, and `a` if it goes last. -/
theorem C97_race (hash : PyStr → Int) (H : Hasher) (lim : Nat) (s t : PyStr) (a b : Version) (hst : s ≠ t)
    (hs : Specifier.parse s = .ok (.one ⟨.doubleEqual, a⟩)) (ht : Specifier.parse t = .ok (.one ⟨.doubleEqual, b⟩)) (h : a ==ₚ b) :
    (threadsAfter hash H lim [[.parseVersionSet s], [.parseVersionSet t]] [1, 1, 1, 1]).1[1]? =
      some (.done [.ok (.set (.item (.point b)))]) ∧
    (threadsAfter hash H lim [[.parseVersionSet s], [.parseVersionSet t]] [0, 0, 0, 0, 1, 1, 1]).1[1]? =
      some (.done [.ok (.set (.item (.point a)))]) := by
  have he : (Specifier.one ⟨.doubleEqual, a⟩).eq (.one ⟨.doubleEqual, b⟩) = true := by
    simp [Specifier.eq, Operator.eq, OpType.eq, h]
  have hh : H.specifier (.one ⟨.doubleEqual, a⟩) = H.specifier (.one ⟨.doubleEqual, b⟩) := rfl
  have hf : Key.fits hash H (.toSet (.one ⟨.doubleEqual, a⟩)) (.toSet (.one ⟨.doubleEqual, b⟩)) = true := by
    simp only [Key.fits, he, hh, decide_true, Bool.and_self]
  have hn : Key.fits hash H (.versionSet s) (.versionSet t) = false := by simp [Key.fits, hst]
  have hk : Key.fits hash H (.toSet (.one ⟨.doubleEqual, a⟩)) (.versionSet t) = false := rfl
  have hk' : Key.fits hash H (.versionSet s) (.toSet (.one ⟨.doubleEqual, b⟩)) = false := rfl
  have translates : ∀ v : Version, (⟨.doubleEqual, v⟩ : Operator).toSet lim = .ok (.item (.point v)) := fun _ => rfl
  constructor
  · simp [threadsAfter, Task.schedule, Task.stepAt, thread, task, versionSetTask, Task.call, Task.bind, Task.andThen, Task.step, ht,
      toSetTask, Stored.toSet?, Except.map, translates]
  · simp [threadsAfter, Task.schedule, Task.stepAt, thread, task, versionSetTask, Task.call, Task.bind, Task.andThen, Task.step, hs, ht,
      toSetTask, Stored.toSet?, hf, hn, hk, hk', Except.map, translates]

example (hash : PyStr → Int) (H : Hasher) :
    (threadsAfter hash H 7 [[.parseVersionSet "==1".toList], [.parseVersionSet "==1.0".toList]] [1, 1, 1, 1]).1[1]? =
      some (.done [.ok (.set (.item (exPoint [1, 0])))]) ∧
    (threadsAfter hash H 7 [[.parseVersionSet "==1".toList], [.parseVersionSet "==1.0".toList]] [0, 0, 0, 0, 1, 1, 1]).1[1]? =
      some (.done [.ok (.set (.item (exPoint [1])))]) :=
  C97_race hash H 7 _ _ (exVersion [1]) (exVersion [1, 0]) (by decide) (by rfl) (by rfl) (by decide +kernel)

end Verif
