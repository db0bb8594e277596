import Verif.Props.Threads
import Verif.Props.CacheReuse
/-!
# C110: with threads, the caches may give something else than they gave

C109 says that in one thread a conversion that returned once returns the same again. A thread that missed the cache before the
first result was stored stores its own result later, in place of the first.
-/

namespace Verif
open Specifier Statement

/-- C110. Let two strings be read as `==` operators with the same hash, and let these have the sets `x` and `y`. A thread that reads
the first string and converts the result twice may get `x` and then `y`, for the same specifier, if another thread converts
the operator of the second string. -/
theorem C110_violation (hash : PyStr → Int) (H : Hasher) (lim : Nat) (s t : PyStr) (o p : Operator) (x y : VSet) (hst : s ≠ t)
    (hs : Specifier.parse s = .ok (.one o)) (ht : Specifier.parse t = .ok (.one p)) (he : o.eq p = true)
    (hh : H.specifier (.one o) = H.specifier (.one p)) (hx : o.toSet lim = .ok x) (hy : p.toSet lim = .ok y) :
    ∃ steps, (threadsAfter hash H lim [[.parseSpecifier s, .toSet 0, .toSet 0], [.parseSpecifier t, .toSet 0]] steps).1[0]? =
      some (.done [.ok (.specifier (.one o)), .ok (.set x), .ok (.set y)]) := by
  have hf : Key.fits hash H (.toSet (.one p)) (.toSet (.one o)) = true := by
    have he' : (Specifier.one p).eq (.one o) = true := Specifier.eq_symm _ _ (by simpa [Specifier.eq] using he)
    simp only [Key.fits, he', hh, decide_true, Bool.and_self]
  have hn : Key.fits hash H (.specifier s) (.specifier t) = false := by simp [Key.fits, hst]
  have k1 : ∀ u w, Key.fits hash H (.specifier u) (.toSet w) = false := fun _ _ => rfl
  refine ⟨[0, 0, 0, 1, 1, 1, 0, 1, 0], ?_⟩
  simp [threadsAfter, Task.schedule, Task.stepAt, thread, task, specifierTask, Task.call, Task.bind, Task.andThen, Task.step, hs, ht,
      toSetTask, Stored.toSet?, hf, hn, k1, hx, hy, Except.map, onResult, getSpecifier]

/-- `~=1.0` and `~=1.0.0`, with any hashes: the thread that has `~=1.0` gets `[1.0, 2.0)` and then `[1.0.0, 1.1.0)` for it. -/
example (hash : PyStr → Int) (H : Hasher) :
    ∃ steps, (threadsAfter hash H 7 [[.parseSpecifier "~=1.0".toList, .toSet 0, .toSet 0],
        [.parseSpecifier "~=1.0.0".toList, .toSet 0]] steps).1[0]? =
      some (.done [.ok (.specifier (.one ⟨.tildeEqual, exVersion [1, 0]⟩)), .ok (.set (.item (exRange (some [1, 0]) (some [2, 0])))),
        .ok (.set (.item (exRange (some [1, 0, 0]) (some [1, 1, 0]))))]) :=
  C110_violation hash H 7 _ _ ⟨.tildeEqual, exVersion [1, 0]⟩ ⟨.tildeEqual, exVersion [1, 0, 0]⟩ _ _ (by decide) (by rfl) (by rfl)
    (by decide +kernel) (by rfl) (by decide +kernel) (by decide +kernel)

/-- The second set lacks versions of the first. -/
example : (exRange (some [1, 0]) (some [2, 0])).contains (exVersion [1, 5]) = true ∧
    (exRange (some [1, 0, 0]) (some [1, 1, 0])).contains (exVersion [1, 5]) = false := by decide +kernel

/-! ### between statements -/

/-- What a lookup finds. -/
def Memory.found (hash : PyStr → Int) (H : Hasher) (m : Memory) (k : Key) : Option Stored :=
  (m.find? (fun e => e.1.fits hash H k)).map (·.2)

section
variable {hash : PyStr → Int} {H : Hasher}

theorem Key.fits_symm {j k : Key} (h : j.fits hash H k = true) : k.fits hash H j = true := by
  cases j <;> cases k <;> simp only [Key.fits, Bool.and_eq_true, decide_eq_true_eq, Bool.false_eq_true] at h ⊢
  · exact ⟨h.1.symm, h.2.symm⟩
  · exact ⟨h.1.symm, h.2.symm⟩
  · exact ⟨h.1.symm, h.2.symm⟩
  · exact ⟨h.1.symm, specifier_equiv.symm _ _ h.2⟩
  · exact ⟨h.1.symm, vset_equiv.symm _ _ h.2⟩

theorem Key.fits_trans {i j k : Key} (h : i.fits hash H j = true) (g : j.fits hash H k = true) : i.fits hash H k = true := by
  cases i <;> cases j <;> cases k <;> simp only [Key.fits, Bool.and_eq_true, decide_eq_true_eq, Bool.false_eq_true] at h g ⊢
  · exact ⟨h.1.trans g.1, h.2.trans g.2⟩
  · exact ⟨h.1.trans g.1, h.2.trans g.2⟩
  · exact ⟨h.1.trans g.1, h.2.trans g.2⟩
  · exact ⟨h.1.trans g.1, specifier_equiv.trans _ _ _ h.2 g.2⟩
  · exact ⟨h.1.trans g.1, vset_equiv.trans _ _ _ h.2 g.2⟩

theorem Memory.found_congr {j k : Key} (h : k.fits hash H j = true) (m : Memory) : m.found hash H j = m.found hash H k := by
  unfold Memory.found
  have : (fun e : Key × Stored => e.1.fits hash H j) = fun e => e.1.fits hash H k := by
    funext e
    exact Bool.eq_iff_iff.2 ⟨fun a => Key.fits_trans a (Key.fits_symm h), fun a => Key.fits_trans a h⟩
  rw [this]

/-- As long as lookups of keys that fit `k` find `v`, the task stores nothing for such keys. -/
def Task.Spares (hash : PyStr → Int) (H : Hasher) (k : Key) (v : Stored) {γ : Type} : Task γ → Prop
  | .done _ => True
  | .lookup j next => (k.fits hash H j = true → (next (some v)).Spares hash H k v) ∧
      (k.fits hash H j = false → ∀ o, (next o).Spares hash H k v)
  | .store j _ next => k.fits hash H j = false ∧ next.Spares hash H k v

variable {k : Key} {v : Stored} {γ δ : Type}

theorem Task.Spares.bind {m : Task γ} (h : m.Spares hash H k v) {f : γ → Task δ} (hf : ∀ r, (f r).Spares hash H k v) :
    (m.bind f).Spares hash H k v := by
  induction m with
  | done r => exact hf r
  | lookup j next ih => exact ⟨fun a => ih _ (h.1 a), fun a o => ih _ (h.2 a o)⟩
  | store j w next ih => exact ⟨h.1, ih h.2⟩

theorem Task.Spares.andThen {m : Task (Except PyErr γ)} (h : m.Spares hash H k v) {f : γ → Task (Except PyErr δ)}
    (hf : ∀ r, (f r).Spares hash H k v) : (m.andThen f).Spares hash H k v := by
  refine h.bind fun r => ?_
  cases r with
  | error e => trivial
  | ok x => exact hf x

theorem Task.Spares.call {j : Key} {get : Stored → Option γ} {put : γ → Stored} {body : Task (Except PyErr γ)}
    (hget : k.fits hash H j = true → ∃ x, get v = some x) (h : body.Spares hash H k v) :
    (Task.call j get put body).Spares hash H k v := by
  refine ⟨fun a => ?_, fun a o => ?_⟩
  · obtain ⟨x, hx⟩ := hget a
    simp only [Option.bind_some, hx]
    trivial
  · dsimp only
    split
    · trivial
    · exact h.andThen fun x => ⟨a, trivial⟩

theorem Task.spares_step {t : Task γ} {m : Memory} (ht : t.Spares hash H k v) (hm : m.found hash H k = some v) :
    (t.step hash H m).1.Spares hash H k v ∧ (t.step hash H m).2.found hash H k = some v := by
  cases t with
  | done r => exact ⟨ht, hm⟩
  | lookup j next =>
    refine ⟨?_, hm⟩
    by_cases hj : k.fits hash H j = true
    · have := Memory.found_congr hj m
      unfold Memory.found at this hm
      simp only [Task.step, this, hm]
      exact ht.1 hj
    · exact ht.2 (by simpa using hj) _
  | store j w next =>
    refine ⟨ht.2, ?_⟩
    have : Key.fits hash H j k = false := by
      cases hj : Key.fits hash H j k with
      | false => rfl
      | true => exact absurd (Key.fits_symm hj) (by rw [ht.1]; exact Bool.false_ne_true)
    unfold Memory.found at hm ⊢
    simpa only [Task.step, List.find?_cons, this] using hm

theorem spares_schedule (steps : List Nat) : ∀ {ts : List (Task γ)} {m : Memory},
    (∀ (i : Nat) (t : Task γ), ts[i]? = some t → t.Spares hash H k v) → m.found hash H k = some v →
    (Task.schedule hash H steps ts m).2.found hash H k = some v := by
  induction steps with
  | nil => exact fun _ h => h
  | cons j steps ih =>
    intro ts m h hm
    simp only [Task.schedule]
    refine ih (fun i u hu => ?_) ?_ <;> unfold Task.stepAt at * <;> cases hj : ts[j]? with
    | none => simp only [hj] at *; first | exact hm | exact h i u hu
    | some t =>
      obtain ⟨h1, h2⟩ := Task.spares_step (h j t hj) hm
      simp only [hj] at *
      first
        | exact h2
        | (rw [List.getElem?_set] at hu
           split at hu
           · split at hu
             · cases hu; exact h1
             · cases hu
           · exact h i u hu)

theorem reduceAllTask_spares {lim : Nat} {l : List Specifier} (ih : ∀ s ∈ l, (s.toSetTask lim).Spares hash H k v) :
    ∀ acc, (reduceAllTask lim acc l).Spares hash H k v := by
  induction l with
  | nil => intro acc; trivial
  | cons s rest ihl =>
    intro acc
    unfold reduceAllTask
    refine (ih s (by simp)).andThen fun x => ?_
    exact Task.Spares.andThen (m := .done _) trivial fun y => ihl (fun s hs => ih s (by simp [hs])) y

theorem reduceAnyTask_spares {lim : Nat} {l : List Specifier} (ih : ∀ s ∈ l, (s.toSetTask lim).Spares hash H k v) :
    ∀ acc, (reduceAnyTask lim acc l).Spares hash H k v := by
  induction l with
  | nil => intro acc; trivial
  | cons s rest ihl =>
    intro acc
    unfold reduceAnyTask
    refine (ih s (by simp)).andThen fun x => ?_
    exact Task.Spares.andThen (m := .done _) trivial fun y => ihl (fun s hs => ih s (by simp [hs])) y

section
variable (hv : k.Typed v)
include hv

theorem versionTask_spares (s : PyStr) : (versionTask s).Spares hash H k v := by
  refine .call (fun h => ?_) trivial
  cases k <;> cases v <;> first | exact hv.elim | exact ⟨_, rfl⟩ | simp [Key.fits] at h

theorem specifierTask_spares (s : PyStr) : (specifierTask s).Spares hash H k v := by
  refine .call (fun h => ?_) trivial
  cases k <;> cases v <;> first | exact hv.elim | exact ⟨_, rfl⟩ | simp [Key.fits] at h

theorem call_toSet_spares (s : Specifier) {body : Task (Except PyErr VSet)} (h : body.Spares hash H k v) :
    (Task.call (.toSet s) Stored.toSet? .set body).Spares hash H k v := by
  refine .call (fun a => ?_) h
  clear h
  rename' a => h
  cases k <;> cases v <;> first | exact hv.elim | exact ⟨_, rfl⟩ | simp [Key.fits] at h

theorem call_fromSet_spares (x : VSet) {body : Task (Except PyErr Specifier)} (h : body.Spares hash H k v) :
    (Task.call (.fromSet x) Stored.toSpecifier? .specifier body).Spares hash H k v := by
  refine .call (fun a => ?_) h
  clear h
  rename' a => h
  cases k <;> cases v <;> first | exact hv.elim | exact ⟨_, rfl⟩ | simp [Key.fits] at h

theorem toSetTask_spares (lim : Nat) : ∀ s : Specifier, (s.toSetTask lim).Spares hash H k v
  | .one o => by unfold toSetTask; exact call_toSet_spares hv _ trivial
  | .never => by unfold toSetTask; exact call_toSet_spares hv _ trivial
  | .always => by unfold toSetTask; exact call_toSet_spares hv _ trivial
  | .all l => by
    unfold toSetTask
    refine call_toSet_spares hv _ ?_
    cases l with
    | nil => trivial
    | cons s rest => exact (toSetTask_spares lim s).andThen fun x => reduceAllTask_spares (fun t _ => toSetTask_spares lim t) x
  | .any l => by
    unfold toSetTask
    refine call_toSet_spares hv _ ?_
    cases l with
    | nil => trivial
    | cons s rest => exact (toSetTask_spares lim s).andThen fun x => reduceAnyTask_spares (fun t _ => toSetTask_spares lim t) x

theorem fromItemsTask_spares : ∀ l : List Item, (fromItemsTask l).Spares hash H k v
  | [] => trivial
  | i :: rest => Task.Spares.andThen (m := fromItemTask i) (call_fromSet_spares hv _ (body := .done _) trivial) fun _ =>
      Task.Spares.andThen (fromItemsTask_spares rest) fun _ => trivial

theorem fromSetTask_spares (lim : Nat) (x : VSet) : (fromSetTask lim x).Spares hash H k v := by
  cases x with
  | empty => exact call_fromSet_spares hv _ trivial
  | item i => exact call_fromSet_spares hv _ trivial
  | union items =>
    refine call_fromSet_spares hv _ (Task.Spares.andThen (m := .done _) trivial fun o => ?_)
    cases o with
    | some s => trivial
    | none => exact (fromItemsTask_spares hv items).andThen fun l => trivial

theorem versionSetTask_spares (lim : Nat) (s : PyStr) : (versionSetTask lim s).Spares hash H k v := by
  refine .call (fun h => ?_) (Task.Spares.andThen (m := .done _) trivial fun t => toSetTask_spares hv lim t)
  cases k <;> cases v <;> first | exact hv.elim | exact ⟨_, rfl⟩ | simp [Key.fits] at h

theorem statement_spares (lim : Nat) (env : List Result) (st : Statement) : (st.task lim env).Spares hash H k v := by
  cases st <;> unfold task <;> first
    | trivial
    | exact (versionTask_spares hv _).bind fun _ => trivial
    | exact (specifierTask_spares hv _).bind fun _ => trivial
    | exact (versionSetTask_spares hv lim _).bind fun _ => trivial
    | exact Task.Spares.bind (Task.Spares.andThen (m := .done _) trivial fun t => toSetTask_spares hv lim t) fun _ => trivial
    | exact Task.Spares.bind (Task.Spares.andThen (m := .done _) trivial fun t => fromSetTask_spares hv lim t) fun _ => trivial
    | exact Task.Spares.bind (Task.Spares.andThen (m := .done _) trivial fun t =>
        (toSetTask_spares hv lim t).andThen fun x => fromSetTask_spares hv lim x) fun _ => trivial

theorem thread_spares (lim : Nat) : ∀ (program : List Statement) (env : List Result), (thread lim env program).Spares hash H k v
  | [], _ => trivial
  | st :: rest, env => (statement_spares hv lim env st).bind fun _ => thread_spares lim rest _
end

/-- The other threads and this one are between statements: each has some results and still has to run some statements. -/
def Between (lim : Nat) (ts : List (Task (List Result))) : Prop :=
  ∀ (i : Nat) (t : Task (List Result)), ts[i]? = some t → ∃ results rest, t = thread lim results rest

/-- C110. But if at a moment when all threads are between statements the cache of `specifier_to_version_set` has `x` for `s`, then
whatever the threads do later, converting a specifier equal to `s`, with the same hash, gives `x` and leaves the caches as they are. -/
theorem C110_between_specifiers (lim : Nat) (programs : List (List Statement)) (steps later : List Nat)
    (hb : Between lim (threadsAfter hash H lim programs steps).1) (s t : Specifier) (hh : H.specifier s = H.specifier t)
    (he : s.eq t = true) (x : VSet) (hx : (threadsAfter hash H lim programs steps).2.found hash H (.toSet s) = some (.set x)) :
    (t.toSetTask lim).alone hash H (threadsAfter hash H lim programs (steps ++ later)).2 =
      (.ok x, (threadsAfter hash H lim programs (steps ++ later)).2) := by
  have hf : Key.fits hash H (.toSet s) (.toSet t) = true := by simp [Key.fits, hh, he]
  have h := spares_schedule (hash := hash) (H := H) later (fun i u hu => by
    obtain ⟨results, rest, rfl⟩ := hb i u hu
    exact thread_spares (k := .toSet s) (v := .set x) trivial lim rest results) hx
  rw [← Memory.found_congr hf] at h
  unfold Memory.found at h
  rw [threadsAfter, schedule_append]
  cases t <;> unfold toSetTask <;> simp only [Task.call, Task.alone, h, Option.bind_some, Stored.toSet?]

/-- C110. The same for the cache of `version_set_to_specifier`. -/
theorem C110_between_sets (lim : Nat) (programs : List (List Statement)) (steps later : List Nat)
    (hb : Between lim (threadsAfter hash H lim programs steps).1) (s t : VSet) (hh : H.vset s = H.vset t)
    (he : s.eq t = true) (x : Specifier)
    (hx : (threadsAfter hash H lim programs steps).2.found hash H (.fromSet s) = some (.specifier x)) :
    (fromSetTask lim t).alone hash H (threadsAfter hash H lim programs (steps ++ later)).2 =
      (.ok x, (threadsAfter hash H lim programs (steps ++ later)).2) := by
  have hf : Key.fits hash H (.fromSet s) (.fromSet t) = true := by simp [Key.fits, hh, he]
  have h := spares_schedule (hash := hash) (H := H) later (fun i u hu => by
    obtain ⟨results, rest, rfl⟩ := hb i u hu
    exact thread_spares (k := .fromSet s) (v := .specifier x) trivial lim rest results) hx
  rw [← Memory.found_congr hf] at h
  unfold Memory.found at h
  rw [threadsAfter, schedule_append]
  cases t <;> simp only [fromSetTask, fromItemTask, Task.call, Task.alone, h, Option.bind_some, Stored.toSpecifier?]
end

/-- The threads of the example above, where the first goes first, up to the end of its first conversion: then, whatever turns they
take, both sets are the one of the first. -/
example (hash : PyStr → Int) (H : Hasher) (later : List Nat) :
    ((Specifier.one ⟨.tildeEqual, exVersion [1, 0, 0]⟩).toSetTask 7).alone hash H
        (threadsAfter hash H 7 [[.parseSpecifier "~=1.0".toList, .toSet 0, .toSet 0],
          [.parseSpecifier "~=1.0.0".toList, .toSet 0]] ([0, 0, 0, 0] ++ later)).2 =
      (.ok (.item (exRange (some [1, 0]) (some [2, 0]))), (threadsAfter hash H 7 [[.parseSpecifier "~=1.0".toList, .toSet 0, .toSet 0],
          [.parseSpecifier "~=1.0.0".toList, .toSet 0]] ([0, 0, 0, 0] ++ later)).2) := by
  have hs : Specifier.parse "~=1.0".toList = .ok (.one ⟨.tildeEqual, exVersion [1, 0]⟩) := by rfl
  have hx : (⟨.tildeEqual, exVersion [1, 0]⟩ : Operator).toSet 7 = .ok (.item (exRange (some [1, 0]) (some [2, 0]))) := by decide +kernel
  have state : threadsAfter hash H 7 [[.parseSpecifier "~=1.0".toList, .toSet 0, .toSet 0],
        [.parseSpecifier "~=1.0.0".toList, .toSet 0]] [0, 0, 0, 0] =
      ([thread 7 [.ok (.specifier (.one ⟨.tildeEqual, exVersion [1, 0]⟩)), .ok (.set (.item (exRange (some [1, 0]) (some [2, 0]))))] [.toSet 0],
        thread 7 [] [.parseSpecifier "~=1.0.0".toList, .toSet 0]],
       [(.toSet (.one ⟨.tildeEqual, exVersion [1, 0]⟩), .set (.item (exRange (some [1, 0]) (some [2, 0])))),
        (.specifier "~=1.0".toList, .specifier (.one ⟨.tildeEqual, exVersion [1, 0]⟩))]) := by
    have k1 : ∀ u w, Key.fits hash H (.specifier u) (.toSet w) = false := fun _ _ => rfl
    simp only [threadsAfter, Task.schedule, Task.stepAt, thread, task, specifierTask, Task.call, Task.bind, Task.andThen, Task.step, hs,
      toSetTask, hx, Except.map, onResult, getSpecifier, List.map_cons, List.map_nil, List.getElem?_cons_zero, List.set_cons_zero,
      List.find?_nil, List.find?_cons, k1, Option.map_none, Option.bind_none, List.nil_append, List.cons_append]
  refine C110_between_specifiers 7 _ [0, 0, 0, 0] later ?_ (.one ⟨.tildeEqual, exVersion [1, 0]⟩)
    (.one ⟨.tildeEqual, exVersion [1, 0, 0]⟩) rfl (by decide +kernel) _ ?_
  · rw [state]
    intro i t ht
    match i with
    | 0 => cases ht; exact ⟨_, _, rfl⟩
    | 1 => cases ht; exact ⟨_, _, rfl⟩
    | _ + 2 => cases ht
  · rw [state]
    simp only [Memory.found, List.find?_cons]
    have : Key.fits hash H (.toSet (.one ⟨.tildeEqual, exVersion [1, 0]⟩)) (.toSet (.one ⟨.tildeEqual, exVersion [1, 0]⟩)) = true := by
      simp only [Key.fits, decide_true, Bool.true_and]
      decide +kernel
    rw [this]
    rfl

/-- Two threads read `==1` and `==1.0` and convert the sets back; when the first has converted its set once, `{1.0}` is written
with `1` from then on. -/
example (hash : PyStr → Int) (H : Hasher) (later : List Nat) :
    (fromSetTask 7 (.item (exPoint [1, 0]))).alone hash H
        (threadsAfter hash H 7 [[.parseVersionSet "==1".toList, .fromSet 0, .fromSet 0],
          [.parseVersionSet "==1.0".toList, .fromSet 0]] ([0, 0, 0, 0, 0, 0] ++ later)).2 =
      (.ok (.one ⟨.doubleEqual, exVersion [1]⟩), (threadsAfter hash H 7 [[.parseVersionSet "==1".toList, .fromSet 0, .fromSet 0],
          [.parseVersionSet "==1.0".toList, .fromSet 0]] ([0, 0, 0, 0, 0, 0] ++ later)).2) := by
  have hs : Specifier.parse "==1".toList = .ok (.one ⟨.doubleEqual, exVersion [1]⟩) := by rfl
  have hx : (⟨.doubleEqual, exVersion [1]⟩ : Operator).toSet 7 = .ok (.item (exPoint [1])) := by decide +kernel
  have hy : fromItem (exPoint [1]) = .ok (.one ⟨.doubleEqual, exVersion [1]⟩) := by rfl
  have state : threadsAfter hash H 7 [[.parseVersionSet "==1".toList, .fromSet 0, .fromSet 0],
        [.parseVersionSet "==1.0".toList, .fromSet 0]] [0, 0, 0, 0, 0, 0] =
      ([thread 7 [.ok (.set (.item (exPoint [1]))), .ok (.specifier (.one ⟨.doubleEqual, exVersion [1]⟩))] [.fromSet 0],
        thread 7 [] [.parseVersionSet "==1.0".toList, .fromSet 0]],
       [(.fromSet (.item (exPoint [1])), .specifier (.one ⟨.doubleEqual, exVersion [1]⟩)),
        (.versionSet "==1".toList, .set (.item (exPoint [1]))),
        (.toSet (.one ⟨.doubleEqual, exVersion [1]⟩), .set (.item (exPoint [1])))]) := by
    have k1 : ∀ u w, Key.fits hash H (.versionSet u) (.fromSet w) = false := fun _ _ => rfl
    have k2 : ∀ u w, Key.fits hash H (.toSet u) (.fromSet w) = false := fun _ _ => rfl
    simp only [threadsAfter, Task.schedule, Task.stepAt, thread, task, versionSetTask, Task.call, Task.bind, Task.andThen, Task.step, hs,
      toSetTask, fromSetTask, fromItemTask, hx, hy, Except.map, onResult, getSet, List.map_cons, List.map_nil, List.getElem?_cons_zero,
      List.set_cons_zero, List.find?_nil, List.find?_cons, k1, k2, Option.map_none, Option.bind_none, List.nil_append, List.cons_append]
  refine C110_between_sets 7 _ [0, 0, 0, 0, 0, 0] later ?_ (.item (exPoint [1])) (.item (exPoint [1, 0])) rfl (by decide +kernel) _ ?_
  · rw [state]
    intro i t ht
    match i with
    | 0 => cases ht; exact ⟨_, _, rfl⟩
    | 1 => cases ht; exact ⟨_, _, rfl⟩
    | _ + 2 => cases ht
  · rw [state]
    simp only [Memory.found, List.find?_cons]
    have : Key.fits hash H (.fromSet (.item (exPoint [1]))) (.fromSet (.item (exPoint [1]))) = true := by
      simp only [Key.fits, decide_true, Bool.true_and]
      decide +kernel
    rw [this]
    rfl

end Verif
