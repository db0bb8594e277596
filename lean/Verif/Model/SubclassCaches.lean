import Verif.Model.SubclassSets
import Verif.Model.Caches
/-!
# The converters and their caches with versions of more than one class

`specifier_to_version_set` and `version_set_to_specifier` (/repo/versions/converters.py 57-124) keep one dictionary each for the
whole process, whatever the classes of the versions in the keys. The functions are those of `Model/Specifiers` and
`Model/Caches` on the objects of `Model/Subclasses`.

A subclass of `Version` may define its own `__hash__` (and one decorated with `define` gets one from attrs), so the hashes of the
keys are a parameter.
-/

namespace Verif
namespace TSpecifier

/-- `SpecifierOne(type, version)` with `validate`, /repo/versions/operators.py 815-822. -/
def mkOne (t : OpType) (v : TVersion) : Except PyErr TSpecifier :=
  if t = .tildeEqual ∧ v.version.lastIndex = 0 then .error .valueError else .ok (one t v)

/-- `SpecifierAny.of_specifiers` with the constructor, /repo/versions/specifiers.py 93-123. -/
def anyOf (specifiers : List TSpecifier) : Except PyErr TSpecifier :=
  match specifiers with
  | [] => .ok never
  | [s] => .ok s
  | _ => .ok (any specifiers)

/-- `SpecifierAll.of_specifiers` with the constructor, /repo/versions/specifiers.py 155-169. -/
def allOf (specifiers : List TSpecifier) : Except PyErr TSpecifier :=
  match specifiers with
  | [] => .ok always
  | [s] => .ok s
  | _ => .ok (all specifiers)

/-- `try_exclude_version`, /repo/versions/converters_utils.py 35-42. -/
def tryExcludeVersion (S : ItemSort) (lim : Nat) (items : List TItem) : Except PyErr (Option TSpecifier) := do
  match ← TSet.excludeVersion S lim items with
  | none => .ok none
  | some v => do .ok (some (← mkOne .notEqual v))

/-- `try_range_simple`, /repo/versions/converters_utils.py 31-32, 45-55. -/
def tryRangeSimple (i : TItem) : Except PyErr (Option TSpecifier) :=
  if i.isEmpty then .ok (some never)
  else if i.isUniversal then .ok (some always)
  else if i.isPoint then do .ok (some (← mkOne .doubleEqual (← i.version)))
  else .ok none

/-- `try_range_unwrap`, /repo/versions/converters_utils.py 61-83. -/
def tryRangeUnwrap (r : TRange) : Except PyErr TSpecifier := do
  let minSpecifier ← match r.min with
    | none => .ok none
    | some v => do .ok (some (← mkOne (if r.includeMin then .greaterOrEqual else .greater) v))
  let maxSpecifier ← match r.max with
    | none => .ok none
    | some v => do .ok (some (← mkOne (if r.includeMax then .lessOrEqual else .less) v))
  match minSpecifier, maxSpecifier with
  | some a, some b => allOf [a, b]
  | some a, none => .ok a
  | none, some b => .ok b
  | none, none => .error .internalError

/-- `version_set_to_specifier` on an item, /repo/versions/converters.py 94-117. -/
def fromItem : TItem → Except PyErr TSpecifier
  | .point v => mkOne .doubleEqual v
  | .range r => do
    match ← tryRangeSimple (.range r) with
    | some s => .ok s
    | none => tryRangeUnwrap r

/-- The specifiers of the items, in order. -/
def fromItems : List TItem → Except PyErr (List TSpecifier)
  | [] => .ok []
  | i :: rest => do .ok ((← fromItem i) :: (← fromItems rest))

/-- `version_set_to_specifier`, /repo/versions/converters.py 94-124. -/
def fromSet (S : ItemSort) (lim : Nat) : TSet → Except PyErr TSpecifier
  | .empty => .ok never
  | .item i => fromItem i
  | .union items => do
    match ← tryExcludeVersion S lim items with
    | some s => .ok s
    | none => do anyOf (← fromItems items)

/-- `simplify`, /repo/versions/converters.py 41-54. -/
def simplify (S : ItemSort) (lim : Nat) (s : TSpecifier) : Except PyErr TSpecifier := do fromSet S lim (← toSet S lim s)

section
variable (hash : TSpecifier → Int) (S : ItemSort) (lim : Nat)

mutual
/-- `specifier_to_version_set` with its cache, /repo/versions/converters.py 57-84. -/
def toSetCached : TSpecifier → Cached TSpecifier TSet TSet
  | one t v => .wrap hash TSpecifier.eq (one t v) (.pure (t.translateT S lim v))
  | never => .wrap hash TSpecifier.eq never (.pure (.ok .empty))
  | always => .wrap hash TSpecifier.eq always (.pure (.ok .universal))
  | all l => .wrap hash TSpecifier.eq (all l) (match l with
    | [] => .pure (.error .typeError)
    | s :: rest => (toSetCached s).andThen fun x => reduceAllCached x rest)
  | any l => .wrap hash TSpecifier.eq (any l) (match l with
    | [] => .pure (.error .typeError)
    | s :: rest => (toSetCached s).andThen fun x => reduceAnyCached x rest)
def reduceAllCached : TSet → List TSpecifier → Cached TSpecifier TSet TSet
  | acc, [] => .pure (.ok acc)
  | acc, s :: rest => (toSetCached s).andThen fun x =>
      (Cached.pure (acc.intersection S lim x)).andThen fun y => reduceAllCached y rest
def reduceAnyCached : TSet → List TSpecifier → Cached TSpecifier TSet TSet
  | acc, [] => .pure (.ok acc)
  | acc, s :: rest => (toSetCached s).andThen fun x =>
      (Cached.pure (acc.unionWith S lim x)).andThen fun y => reduceAnyCached y rest
end
end

section
variable (hash : TSet → Int) (S : ItemSort) (lim : Nat)

/-- `version_set_to_specifier` with its cache on an item of a union, /repo/versions/converters.py 93-117. -/
def fromItemCached (i : TItem) : Cached TSet TSpecifier TSpecifier :=
  .wrap hash TSet.eq (.item i) (.pure (fromItem i))

/-- The specifiers of the items of a union, in order. -/
def fromItemsCached : List TItem → Cached TSet TSpecifier (List TSpecifier)
  | [] => .pure (.ok [])
  | i :: rest => (fromItemCached hash i).andThen fun s => (fromItemsCached rest).andThen fun l => .pure (.ok (s :: l))

/-- `version_set_to_specifier` with its cache, /repo/versions/converters.py 93-124. -/
def fromSetCached : TSet → Cached TSet TSpecifier TSpecifier
  | .empty => .wrap hash TSet.eq .empty (.pure (.ok never))
  | .item i => fromItemCached hash i
  | .union items => .wrap hash TSet.eq (.union items) ((Cached.pure (tryExcludeVersion S lim items)).andThen fun
    | some s => .pure (.ok s)
    | none => (fromItemsCached hash items).andThen fun l => .pure (anyOf l))
end

end TSpecifier

/-- `parse_version` with its cache, /repo/versions/functions.py 24-39. The key is the arguments that were passed: the string, and
`version_type` if given. The default is the class `base`. -/
def parseVersionT (hash : PyStr × Option Nat → Int) (base : Nat) (key : PyStr × Option Nat) :
    Cached (PyStr × Option Nat) TVersion TVersion :=
  .wrap hash (fun a b => decide (a = b)) key (.pure do .ok ⟨key.2.getD base, ← Version.parse key.1⟩)

/-- `parse_specifier` with its cache, /repo/versions/functions.py 42-53. -/
def parseSpecifierT (hash : PyStr × Option Nat → Int) (base : Nat) (key : PyStr × Option Nat) :
    Cached (PyStr × Option Nat) TSpecifier TSpecifier :=
  .wrap hash (fun a b => decide (a = b)) key (.pure do .ok ((← Specifier.parse key.1).ofClass (key.2.getD base)))

end Verif
