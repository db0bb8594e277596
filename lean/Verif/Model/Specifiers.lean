import Verif.Model.Operators
/-!
# Specifiers and converters: /repo/versions/specifiers.py, converters.py, converters_utils.py, functions.py

The converters are modelled here without their caches.
-/

namespace Verif

/-- `Specifier`, /repo/versions/specifiers.py 44-190: `SpecifierNever` (51-59), `SpecifierAlways` (65-73), `SpecifierOne`
(79-86), `SpecifierAny` (101-144), `SpecifierAll` (147-190). -/
inductive Specifier
  | never
  | always
  | one (operator : Operator)
  | any (specifiers : List Specifier)
  | all (specifiers : List Specifier)
  deriving Repr

namespace Specifier

mutual
/-- `__eq__` as generated by attrs: same class and equal fields. -/
def eq : Specifier → Specifier → Bool
  | never, never => true
  | always, always => true
  | one a, one b => a.eq b
  | any a, any b => eqList a b
  | all a, all b => eqList a b
  | _, _ => false
/-- `==` on tuples of specifiers. -/
def eqList : List Specifier → List Specifier → Bool
  | [], [] => true
  | a :: as, b :: bs => eq a b && eqList as bs
  | _, _ => false
end

/-- /repo/versions/specifiers.py 93-98. -/
def checkSpecifiers (specifiers : List Specifier) : Except PyErr Unit :=
  match specifiers with
  | [] => .error .typeError
  | [_] => .error .typeError
  | _ => .ok ()

/-- The constructor of `SpecifierAny`, /repo/versions/specifiers.py 109-113. -/
def mkAny (specifiers : List Specifier) : Except PyErr Specifier := do
  checkSpecifiers specifiers
  .ok (any specifiers)

/-- The constructor of `SpecifierAll`, /repo/versions/specifiers.py 155-159. -/
def mkAll (specifiers : List Specifier) : Except PyErr Specifier := do
  checkSpecifiers specifiers
  .ok (all specifiers)

/-- `SpecifierAny.of_specifiers`, /repo/versions/specifiers.py 115-123; `of` (125-127) and `of_iterable` (129-131) call
it. -/
def anyOf (specifiers : List Specifier) : Except PyErr Specifier :=
  match specifiers with
  | [] => .ok never
  | [s] => .ok s
  | _ => mkAny specifiers

/-- `SpecifierAll.of_specifiers`, /repo/versions/specifiers.py 161-169; `of` (171-173) and `of_iterable` (175-177) call
it. -/
def allOf (specifiers : List Specifier) : Except PyErr Specifier :=
  match specifiers with
  | [] => .ok always
  | [s] => .ok s
  | _ => mkAll specifiers

mutual
/-- `accepts`: /repo/versions/specifiers.py 55-56, 69-70, 85-86, 133-134, 179-180. -/
def accepts : Specifier → Version → Except PyErr Bool
  | never, _ => .ok false
  | always, _ => .ok true
  | one o, v => o.accepts v
  | any l, v => anyAccepts l v
  | all l, v => allAccepts l v
/-- `any(specifier.accepts(version) for specifier in ...)`: stops at the first true. -/
def anyAccepts : List Specifier → Version → Except PyErr Bool
  | [], _ => .ok false
  | s :: rest, v => do if ← accepts s v then .ok true else anyAccepts rest v
/-- `all(specifier.accepts(version) for specifier in ...)`: stops at the first false. -/
def allAccepts : List Specifier → Version → Except PyErr Bool
  | [], _ => .ok true
  | s :: rest, v => do if ← accepts s v then allAccepts rest v else .ok false
end

mutual
/-- `specifier_to_version_set`, /repo/versions/converters.py 58-84, and `version_set_intersection`, `version_set_union`,
/repo/versions/converters_utils.py 23-28. -/
def toSet (lim : Nat) : Specifier → Except PyErr VSet
  | one o => o.toSet lim
  | never => .ok .empty
  | always => .ok .universal
  | all l => match l with
    | [] => .error .typeError
    | s :: rest => do reduceAll lim (← toSet lim s) rest
  | any l => match l with
    | [] => .error .typeError
    | s :: rest => do reduceAny lim (← toSet lim s) rest
/-- The rest of `reduce(version_set_intersection, map(specifier_to_version_set, ...))`; `map` is lazy. -/
def reduceAll (lim : Nat) : VSet → List Specifier → Except PyErr VSet
  | acc, [] => .ok acc
  | acc, s :: rest => do reduceAll lim (← acc.intersection lim (← toSet lim s)) rest
/-- The rest of `reduce(version_set_union, map(specifier_to_version_set, ...))`. -/
def reduceAny (lim : Nat) : VSet → List Specifier → Except PyErr VSet
  | acc, [] => .ok acc
  | acc, s :: rest => do reduceAny lim (← acc.unionWith lim (← toSet lim s)) rest
end

/-- `pin_version`, /repo/versions/converters_utils.py 31-32. -/
def pinVersion (v : Version) : Except PyErr Specifier := do .ok (one (← Operator.create .doubleEqual v))
/-- `unpin_version`, /repo/versions/converters_utils.py 35-36. -/
def unpinVersion (v : Version) : Except PyErr Specifier := do .ok (one (← Operator.create .notEqual v))

/-- `try_exclude_version`, /repo/versions/converters_utils.py 39-42. -/
def tryExcludeVersion (lim : Nat) (items : List Item) : Except PyErr (Option Specifier) := do
  match ← VSet.excludeVersion lim items with
  | none => .ok none
  | some v => do .ok (some (← unpinVersion v))

/-- `try_range_simple`, /repo/versions/converters_utils.py 45-55. -/
def tryRangeSimple (i : Item) : Except PyErr (Option Specifier) :=
  if i.isEmpty then .ok (some never)
  else if i.isUniversal then .ok (some always)
  else if i.isPoint then do .ok (some (← pinVersion (← i.version)))
  else .ok none

/-- `try_range_unwrap`, /repo/versions/converters_utils.py 61-83. -/
def tryRangeUnwrap (min max : Option Version) (includeMin includeMax : Bool) : Except PyErr Specifier := do
  let minSpecifier ← match min with
    | none => .ok none
    | some v => do .ok (some (one (← Operator.create (if includeMin then .greaterOrEqual else .greater) v)))
  let maxSpecifier ← match max with
    | none => .ok none
    | some v => do .ok (some (one (← Operator.create (if includeMax then .lessOrEqual else .less) v)))
  match minSpecifier, maxSpecifier with
  | some a, some b => allOf [a, b]
  | some a, none => .ok a
  | none, some b => .ok b
  | none, none => .error .internalError

/-- `version_set_to_specifier` on an item, /repo/versions/converters.py 94-117. -/
def fromItem : Item → Except PyErr Specifier
  | .point v => pinVersion v
  | .range r => do
    match ← tryRangeSimple (.range r) with
    | some s => .ok s
    | none => tryRangeUnwrap r.min r.max r.includeMin r.includeMax

/-- `version_set_to_specifier`, /repo/versions/converters.py 94-124. -/
def fromSet (lim : Nat) : VSet → Except PyErr Specifier
  | .empty => .ok never
  | .item i => fromItem i
  | .union items => do
    match ← tryExcludeVersion lim items with
    | some s => .ok s
    | none => do anyOf (← items.mapM fromItem)

/-- `simplify`, /repo/versions/converters.py 41-54. -/
def simplify (lim : Nat) (s : Specifier) : Except PyErr Specifier := do fromSet lim (← toSet lim s)

end Specifier

end Verif
