import Verif.Model.Sessions
/-!
# Threads that share the caches: /repo/versions/utils.py 17 and the decorated functions

A call of a function with cache looks its argument up, and if it is not there runs the function, then stores the result; calls
inside the function do the same. `lru_cache(None)` holds no lock while the function runs, so between these actions other
threads may act on the same caches: two threads that miss both run the function, and the second result stored replaces the
first. A task is what a thread does, as a tree of actions on the memory; each action is one step. (Looking up in and storing to
a dictionary call `__hash__` and `__eq__` of the keys, which are Python code, so a thread switch is possible inside them; the
dictionary notices changes and starts over, so that the action takes effect at one moment. This is assumed.) The memory holds
the five dictionaries as one list of entries, latest first, of which a lookup takes the first that fits. (Storing a value for
a key that is there keeps the old key; as fitting is an equivalence, the keys cannot be told apart by lookups.)
-/

namespace Verif

/-- A key of one of the five caches: the function and its argument. -/
inductive Key
  | version (s : PyStr)
  | specifier (s : PyStr)
  | versionSet (s : PyStr)
  | toSet (t : Specifier)
  | fromSet (x : VSet)

/-- What the caches store. -/
inductive Stored
  | version (v : Version)
  | specifier (s : Specifier)
  | set (x : VSet)

def Stored.toSet? : Stored → Option VSet
  | set x => some x
  | _ => none

def Stored.toSpecifier? : Stored → Option Specifier
  | specifier s => some s
  | _ => none

def Stored.toVersion? : Stored → Option Version
  | version v => some v
  | _ => none

/-- Whether the lookup of the second key stops at an entry with the first one. -/
def Key.fits (hash : PyStr → Int) (H : Hasher) : Key → Key → Bool
  | version a, version b => decide (hash a = hash b) && decide (a = b)
  | specifier a, specifier b => decide (hash a = hash b) && decide (a = b)
  | versionSet a, versionSet b => decide (hash a = hash b) && decide (a = b)
  | toSet a, toSet b => decide (H.specifier a = H.specifier b) && a.eq b
  | fromSet a, fromSet b => decide (H.vset a = H.vset b) && a.eq b
  | _, _ => false

abbrev Memory := List (Key × Stored)

/-- What a thread still has to do. -/
inductive Task (γ : Type)
  | done (r : γ)
  | lookup (k : Key) (next : Option Stored → Task γ)
  | store (k : Key) (v : Stored) (next : Task γ)

namespace Task
variable {γ δ : Type}

def bind : Task γ → (γ → Task δ) → Task δ
  | done r, f => f r
  | lookup k next, f => lookup k (fun o => (next o).bind f)
  | store k v next, f => store k v (next.bind f)

/-- Run `f` on the result unless there was an exception. -/
def andThen (m : Task (Except PyErr γ)) (f : γ → Task (Except PyErr δ)) : Task (Except PyErr δ) :=
  m.bind fun
    | .error e => done (.error e)
    | .ok x => f x

/-- A call with cache. -/
def call (k : Key) (get : Stored → Option γ) (put : γ → Stored) (body : Task (Except PyErr γ)) : Task (Except PyErr γ) :=
  lookup k fun o => match o.bind get with
    | some x => done (.ok x)
    | none => body.andThen fun x => store k (put x) (done (.ok x))

end Task

section
variable (lim : Nat)

/-- `parse_version`, /repo/versions/functions.py 28-39. -/
def versionTask (s : PyStr) : Task (Except PyErr Version) :=
  .call (.version s) Stored.toVersion? .version (.done (Version.parse s))

/-- `parse_specifier`, /repo/versions/functions.py 42-53. -/
def specifierTask (s : PyStr) : Task (Except PyErr Specifier) :=
  .call (.specifier s) Stored.toSpecifier? .specifier (.done (Specifier.parse s))

namespace Specifier
mutual
/-- `specifier_to_version_set`, /repo/versions/converters.py 57-84. -/
def toSetTask : Specifier → Task (Except PyErr VSet)
  | one o => .call (.toSet (one o)) Stored.toSet? .set (.done (o.toSet lim))
  | never => .call (.toSet never) Stored.toSet? .set (.done (.ok .empty))
  | always => .call (.toSet always) Stored.toSet? .set (.done (.ok .universal))
  | all l => .call (.toSet (all l)) Stored.toSet? .set (match l with
    | [] => .done (.error .typeError)
    | s :: rest => (toSetTask s).andThen fun x => reduceAllTask x rest)
  | any l => .call (.toSet (any l)) Stored.toSet? .set (match l with
    | [] => .done (.error .typeError)
    | s :: rest => (toSetTask s).andThen fun x => reduceAnyTask x rest)
def reduceAllTask : VSet → List Specifier → Task (Except PyErr VSet)
  | acc, [] => .done (.ok acc)
  | acc, s :: rest => (toSetTask s).andThen fun x =>
      (Task.done (acc.intersection lim x)).andThen fun y => reduceAllTask y rest
def reduceAnyTask : VSet → List Specifier → Task (Except PyErr VSet)
  | acc, [] => .done (.ok acc)
  | acc, s :: rest => (toSetTask s).andThen fun x =>
      (Task.done (acc.unionWith lim x)).andThen fun y => reduceAnyTask y rest
end

/-- `version_set_to_specifier` on an item, /repo/versions/converters.py 93-117. -/
def fromItemTask (i : Item) : Task (Except PyErr Specifier) :=
  .call (.fromSet (.item i)) Stored.toSpecifier? .specifier (.done (fromItem i))

def fromItemsTask : List Item → Task (Except PyErr (List Specifier))
  | [] => .done (.ok [])
  | i :: rest => (fromItemTask i).andThen fun s => (fromItemsTask rest).andThen fun l => .done (.ok (s :: l))

/-- `version_set_to_specifier`, /repo/versions/converters.py 93-124. -/
def fromSetTask : VSet → Task (Except PyErr Specifier)
  | .empty => .call (.fromSet .empty) Stored.toSpecifier? .specifier (.done (.ok never))
  | .item i => fromItemTask i
  | .union items => .call (.fromSet (.union items)) Stored.toSpecifier? .specifier
    ((Task.done (tryExcludeVersion lim items)).andThen fun
      | some s => .done (.ok s)
      | none => (fromItemsTask items).andThen fun l => .done (anyOf l))
end Specifier

/-- `parse_version_set`, /repo/versions/functions.py 56-67, /repo/versions/parsers.py 265-270. -/
def versionSetTask (s : PyStr) : Task (Except PyErr VSet) :=
  .call (.versionSet s) Stored.toSet? .set ((Task.done (Specifier.parse s)).andThen fun t => t.toSetTask lim)

namespace Statement

/-- A call whose argument is the result of an earlier statement. -/
def onResult {α β : Type} (a : Except PyErr α) (f : β → Outcome) (m : α → Task (Except PyErr β)) : Task Result :=
  ((Task.done a).andThen m).bind fun r => .done (r.map f)

/-- A statement as a task; `env` has the results of the earlier statements of the thread. Statements that do not reach a cache
need no step: they touch nothing that is shared. -/
def task (env : List Result) : Statement → Task Result
  | parseVersion s => (versionTask s).bind fun r => .done (r.map .version)
  | parseSpecifier s => (specifierTask s).bind fun r => .done (r.map .specifier)
  | parseVersionSet s => (versionSetTask lim s).bind fun r => .done (r.map .set)
  | toSet i => onResult (getSpecifier env i) .set (Specifier.toSetTask lim)
  | fromSet i => onResult (getSet env i) .specifier (Specifier.fromSetTask lim)
  | simplify i => onResult (getSpecifier env i) .specifier fun s => (s.toSetTask lim).andThen (Specifier.fromSetTask lim)
  | st => .done (st.run (.plain lim) lim env ()).1

/-- A thread: the statements of its program one after the other. -/
def thread : List Result → List Statement → Task (List Result)
  | env, [] => .done env
  | env, st :: rest => (st.task lim env).bind fun r => thread (env ++ [r]) rest

end Statement
end

namespace Task
variable (hash : PyStr → Int) (H : Hasher)

/-- One step of a thread. -/
def step {γ : Type} : Task γ → Memory → Task γ × Memory
  | done r, m => (done r, m)
  | lookup k next, m => (next ((m.find? (fun e => e.1.fits hash H k)).map (·.2)), m)
  | store k v next, m => (next, (k, v) :: m)

/-- One step of thread number `i`, if there is such a thread. -/
def stepAt {γ : Type} (i : Nat) (ts : List (Task γ)) (m : Memory) : List (Task γ) × Memory :=
  match ts[i]? with
  | none => (ts, m)
  | some t => (ts.set i (t.step hash H m).1, (t.step hash H m).2)

/-- The threads and the memory after the steps of a schedule, which gives for each step the number of the thread. -/
def schedule {γ : Type} : List Nat → List (Task γ) → Memory → List (Task γ) × Memory
  | [], ts, m => (ts, m)
  | i :: rest, ts, m => schedule rest (stepAt hash H i ts m).1 (stepAt hash H i ts m).2

/-- The task run to its end without other threads. -/
def alone {γ : Type} : Task γ → Memory → γ × Memory
  | done r, m => (r, m)
  | lookup k next, m => alone (next ((m.find? (fun e => e.1.fits hash H k)).map (·.2))) m
  | store k v next, m => alone next ((k, v) :: m)

end Task
end Verif
