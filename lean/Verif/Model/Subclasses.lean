import Verif.Model.Comparisons
/-!
# Versions of more than one class

`parse_version`, `parse_specifier` and `parse_version_set` (/repo/versions/functions.py 24-67) and `get_version`
(/repo/versions/versioned.py 56-71) take a `version_type`, a subclass of `Version`. Everywhere else in the model there is one
class of versions. Here every version carries its class, a number; the subclasses add and override nothing.

The methods that attrs generates for `Version` (/repo/versions/version.py 39: `eq=True, order=True`) return `NotImplemented`
unless `other.__class__ is self.__class__`. `evolve` and `type(self)(…)` keep the class, so the methods of `Version` compute
the plain result in the class of `self`.
-/

namespace Verif

/-- A version and its class. -/
structure TVersion where
  cls : Nat
  version : Version
  deriving DecidableEq, Repr

namespace TVersion

/-- `__eq__` from attrs; `none` is `NotImplemented`. -/
def eqMethod (a b : TVersion) : Option Bool := if a.cls = b.cls then some (PyCmp.eq a.version b.version) else none

/-- `__lt__`, `__le__`, `__gt__`, `__ge__` from attrs; `none` is `NotImplemented`. -/
def ordMethod (op : CmpOp) (a b : TVersion) : Option Bool :=
  if a.cls = b.cls then some (PyCmp.op op a.version b.version) else none

/-- `a == b`: the two methods, then identity, which fails for objects of two classes. When the class of `b` is a subclass of
the class of `a`, Python calls the methods in the other order; either both answer or none. -/
def eq (a b : TVersion) : Bool := ((a.eqMethod b).or (b.eqMethod a)).getD false

/-- `a != b`: attrs negates `__eq__`; identity last. -/
def ne (a b : TVersion) : Bool := (((a.eqMethod b).map (!·)).or ((b.eqMethod a).map (!·))).getD true

/-- `a < b`, `a <= b`, `a > b`, `a >= b`. -/
def ord (op : CmpOp) (a b : TVersion) : Except PyErr Bool :=
  match (a.ordMethod op b).or (b.ordMethod op.reflected a) with
  | some answer => .ok answer
  | none => .error .typeError

/-- `None == None`, `None == v`, `v == w`. -/
def optEq : Option TVersion → Option TVersion → Bool
  | none, none => true
  | some a, some b => a.eq b
  | _, _ => false

/-- `a == b` where an operand may be an infinity, /repo/versions/types.py 35-36, 76-77. -/
def extEq : Ext TVersion → Ext TVersion → Bool
  | .fin a, .fin b => a.eq b
  | .posInf, b => Infinity.eq b
  | .negInf, b => NegativeInfinity.eq b
  | .fin a, .posInf => Infinity.eq (.fin a)
  | .fin a, .negInf => NegativeInfinity.eq (.fin a)

/-- `a < b` where an operand may be an infinity, /repo/versions/types.py 41-42, 47-48, 82-83, 88-89. -/
def extLt : Ext TVersion → Ext TVersion → Except PyErr Bool
  | .fin a, .fin b => a.ord .lt b
  | .posInf, b => .ok (Infinity.lt b)
  | .negInf, b => .ok (NegativeInfinity.lt b)
  | .fin a, .posInf => .ok (Infinity.gt (.fin a))
  | .fin a, .negInf => .ok (NegativeInfinity.gt (.fin a))

/-- `a > b` where an operand may be an infinity. -/
def extGt : Ext TVersion → Ext TVersion → Except PyErr Bool
  | .fin a, .fin b => a.ord .gt b
  | .posInf, b => .ok (Infinity.gt b)
  | .negInf, b => .ok (NegativeInfinity.gt b)
  | .fin a, .posInf => .ok (Infinity.lt (.fin a))
  | .fin a, .negInf => .ok (NegativeInfinity.lt (.fin a))

/-- `against <= version < next(against)`; `next` keeps the class. /repo/versions/operators.py 250-304. -/
def chained (next : Version → Except PyErr Version) (v against : TVersion) : Except PyErr Bool := do
  if ← against.ord .le v then v.ord .lt ⟨against.cls, ← next against.version⟩ else .ok false

/-- /repo/versions/operators.py 422-445. -/
def matchesWildcardEqual (v against : TVersion) : Except PyErr Bool := do
  match ← against.version.nextWildcardBreaking with
  | none => .ok true
  | some wildcard => if ← against.ord .le v then v.ord .lt ⟨against.cls, wildcard⟩ else .ok false

end TVersion

/-- `matches_*`, /repo/versions/operators.py 250-466, by the first component of the table 788-802. -/
def OpType.matchesT : OpType → TVersion → TVersion → Except PyErr Bool
  | tildeEqual => TVersion.chained Version.nextTildeEqualBreaking
  | doubleEqual => fun v against => .ok (v.eq against)
  | notEqual => fun v against => .ok (v.ne against)
  | less => TVersion.ord .lt
  | lessOrEqual => TVersion.ord .le
  | greater => TVersion.ord .gt
  | greaterOrEqual => TVersion.ord .ge
  | caret => TVersion.chained Version.nextCaretBreaking
  | equal => fun v against => .ok (v.eq against)
  | tilde => TVersion.chained Version.nextTildeBreaking
  | wildcardDoubleEqual => TVersion.matchesWildcardEqual
  | wildcardEqual => TVersion.matchesWildcardEqual
  | wildcardNotEqual => fun v against => do .ok (!(← v.matchesWildcardEqual against))

/-- Specifiers whose operators hold versions of any classes: /repo/versions/specifiers.py. -/
inductive TSpecifier
  | never
  | always
  | one (type : OpType) (version : TVersion)
  | any (specifiers : List TSpecifier)
  | all (specifiers : List TSpecifier)
  deriving Repr

namespace TSpecifier

mutual
/-- `__eq__` as generated by attrs. -/
def eq : TSpecifier → TSpecifier → Bool
  | never, never => true
  | always, always => true
  | one s a, one t b => s.eq t && a.eq b
  | any a, any b => eqList a b
  | all a, all b => eqList a b
  | _, _ => false
/-- `==` on tuples of specifiers. -/
def eqList : List TSpecifier → List TSpecifier → Bool
  | [], [] => true
  | a :: as, b :: bs => eq a b && eqList as bs
  | _, _ => false
end

mutual
/-- `accepts`: /repo/versions/specifiers.py 55-56, 69-70, 85-86, 133-134, 179-180. -/
def accepts : TSpecifier → TVersion → Except PyErr Bool
  | never, _ => .ok false
  | always, _ => .ok true
  | one t a, v => t.matchesT v a
  | any l, v => anyAccepts l v
  | all l, v => allAccepts l v
/-- `any(specifier.accepts(version) for specifier in ...)`: stops at the first true. -/
def anyAccepts : List TSpecifier → TVersion → Except PyErr Bool
  | [], _ => .ok false
  | s :: rest, v => do if ← accepts s v then .ok true else anyAccepts rest v
/-- `all(specifier.accepts(version) for specifier in ...)`: stops at the first false. -/
def allAccepts : List TSpecifier → TVersion → Except PyErr Bool
  | [], _ => .ok true
  | s :: rest, v => do if ← accepts s v then allAccepts rest v else .ok false
end

end TSpecifier

/-- `VersionRange` with versions of any classes, /repo/versions/version_sets.py 388-407. -/
structure TRange where
  min : Option TVersion := none
  max : Option TVersion := none
  includeMin : Bool := false
  includeMax : Bool := false
  deriving DecidableEq, Repr

/-- `VersionItem`, /repo/versions/version_sets.py 1340. -/
inductive TItem
  | range (r : TRange)
  | point (version : TVersion)
  deriving DecidableEq, Repr

/-- `VersionSet`, /repo/versions/version_sets.py 1329. -/
inductive TSet
  | empty
  | item (i : TItem)
  | union (items : List TItem)
  deriving DecidableEq, Repr

namespace TItem

/-- The fields of the item, /repo/versions/version_sets.py 930-946. -/
def fields : TItem → TRange
  | range r => r
  | point v => ⟨some v, some v, true, true⟩

/-- /repo/versions/version_sets.py 423-427. -/
def comparableMin (i : TItem) : Ext TVersion :=
  match i.fields.min with
  | none => .negInf
  | some v => .fin v

/-- /repo/versions/version_sets.py 429-433. -/
def comparableMax (i : TItem) : Ext TVersion :=
  match i.fields.max with
  | none => .posInf
  | some v => .fin v

/-- The constructor of `VersionRange` with `__attrs_post_init__`, /repo/versions/version_sets.py 399-407. -/
def mkRange (min max : Option TVersion) (includeMin includeMax : Bool) : Except PyErr TItem :=
  let i := range ⟨min, max, includeMin, includeMax⟩
  if min.isNone && includeMin then .error .valueError
  else if max.isNone && includeMax then .error .valueError
  else do if ← TVersion.extGt i.comparableMin i.comparableMax then .error .valueError else .ok i

/-- /repo/versions/version_sets.py 474-484. -/
def isLower (self other : TItem) : Except PyErr Bool := do
  if ← TVersion.extLt self.comparableMin other.comparableMin then .ok true
  else if ← TVersion.extGt self.comparableMin other.comparableMin then .ok false
  else .ok (self.fields.includeMin && !other.fields.includeMin)

/-- /repo/versions/version_sets.py 486-496. -/
def isHigher (self other : TItem) : Except PyErr Bool := do
  if ← TVersion.extLt self.comparableMax other.comparableMax then .ok false
  else if ← TVersion.extGt self.comparableMax other.comparableMax then .ok true
  else .ok (self.fields.includeMax && !other.fields.includeMax)

/-- /repo/versions/version_sets.py 498-508. -/
def isStrictlyLower (self other : TItem) : Except PyErr Bool := do
  if ← TVersion.extLt self.comparableMax other.comparableMin then .ok true
  else if ← TVersion.extGt self.comparableMax other.comparableMin then .ok false
  else .ok (!self.fields.includeMax || !other.fields.includeMin)

/-- /repo/versions/version_sets.py 510-520. -/
def isStrictlyHigher (self other : TItem) : Except PyErr Bool := do
  if ← TVersion.extGt self.comparableMin other.comparableMax then .ok true
  else if ← TVersion.extLt self.comparableMin other.comparableMax then .ok false
  else .ok (!self.fields.includeMin || !other.fields.includeMax)

/-- /repo/versions/version_sets.py 522-529. -/
def isAdjacent (self other : TItem) : Bool :=
  (TVersion.optEq self.fields.max other.fields.min && (self.fields.includeMax == !other.fields.includeMin)) ||
    (TVersion.optEq self.fields.min other.fields.max && (self.fields.includeMin == !other.fields.includeMax))

/-- `__eq__`, /repo/versions/version_sets.py 411-413, 534-535. -/
def eq (self other : TItem) : Bool :=
  TVersion.optEq self.fields.min other.fields.min && TVersion.optEq self.fields.max other.fields.max &&
    (self.fields.includeMin == other.fields.includeMin) && (self.fields.includeMax == other.fields.includeMax)

/-- /repo/versions/version_sets.py 552-581. -/
def compare (self other : TItem) : Except PyErr Ordering := do
  if ← TVersion.extGt self.comparableMin other.comparableMin then .ok .gt
  else if ← TVersion.extLt self.comparableMin other.comparableMin then .ok .lt
  else if self.fields.includeMin == !other.fields.includeMin then .ok (if self.fields.includeMin then .lt else .gt)
  else if ← TVersion.extGt self.comparableMax other.comparableMax then .ok .gt
  else if ← TVersion.extLt self.comparableMax other.comparableMax then .ok .lt
  else if self.fields.includeMax == !other.fields.includeMax then .ok (if self.fields.includeMax then .gt else .lt)
  else .ok .eq

/-- /repo/versions/version_sets.py 585-586, 948-949. -/
def isEmpty : TItem → Bool
  | range r => TVersion.extEq (range r).comparableMin (range r).comparableMax && !(r.includeMin && r.includeMax)
  | point _ => false

/-- /repo/versions/version_sets.py 588-589, 951-952. -/
def isPoint : TItem → Bool
  | range r => TVersion.extEq (range r).comparableMin (range r).comparableMax && (r.includeMin && r.includeMax)
  | point _ => true

/-- /repo/versions/version_sets.py 591-592, 954-955. -/
def isUniversal : TItem → Bool
  | range r => r.min.isNone && r.max.isNone
  | point _ => false

/-- /repo/versions/version_sets.py 594-608, 930. -/
def version : TItem → Except PyErr TVersion
  | range r =>
    if (range r).isPoint then
      match r.min with
      | some v => .ok v
      | none => match r.max with
        | some v => .ok v
        | none => .error .valueError
    else .error .valueError
  | point v => .ok v

/-- /repo/versions/version_sets.py 610-626, 957-959. -/
def contains : TItem → TVersion → Except PyErr Bool
  | range r, v => do
    if ← TVersion.extLt (.fin v) (range r).comparableMin then .ok false
    else if !r.includeMin && TVersion.extEq (.fin v) (range r).comparableMin then .ok false
    else if ← TVersion.extGt (.fin v) (range r).comparableMax then .ok false
    else if !r.includeMax && TVersion.extEq (.fin v) (range r).comparableMax then .ok false
    else .ok true
  | point w, v => .ok (w.eq v)

/-- `includes` with an item as argument: /repo/versions/version_sets.py 634-638, 963-966. -/
def includes : TItem → TItem → Except PyErr Bool
  | range r, point v => (range r).contains v
  | range r, range s => do
    if ← (range s).isLower (range r) then .ok false else .ok (!(← (range s).isHigher (range r)))
  | point _, range s => .ok (range s).isEmpty
  | point v, point w => if (point w).isEmpty then .ok true else (point v).contains w

/-- `intersects` with an item as argument: /repo/versions/version_sets.py 649-653, 660-661, 968-969. -/
def intersects : TItem → TItem → Except PyErr Bool
  | range r, point v => (range r).contains v
  | range r, range s => do
    if ← (range s).isStrictlyLower (range r) then .ok false else .ok (!(← (range s).isStrictlyHigher (range r)))
  | point v, other => other.contains v

/-- `intersection` with an item as argument: /repo/versions/version_sets.py 667-704, 971-972. -/
def intersection : TItem → TItem → Except PyErr TSet
  | range r, point v => do if ← (range r).contains v then .ok (.item (point v)) else .ok .empty
  | point v, other => do if ← other.contains v then .ok (.item (point v)) else .ok .empty
  | range r, range s => do
    let self := range r
    let other := range s
    let lower ← self.isLower other
    if ← (if lower then self.isStrictlyLower other else self.isStrictlyHigher other) then .ok .empty
    else
      let (min, includeMin) := if lower then (s.min, s.includeMin) else (r.min, r.includeMin)
      let (max, includeMax) := if ← self.isHigher other then (s.max, s.includeMax) else (r.max, r.includeMax)
      let intersection ← mkRange min max includeMin includeMax
      if intersection.isPoint then .ok (.item (point (← intersection.version))) else .ok (.item intersection)

/-- `VersionUnion.of(a, b)` of two items, /repo/versions/version_sets.py 1048-1092; to sort two items Python calls `b < a`. -/
def unionOf (union : TItem → TItem → Except PyErr TSet) (a b : TItem) : Except PyErr TSet := do
  if a.isUniversal || b.isUniversal then .ok (.item (.range {}))
  else
    let (x, y) := if (← b.compare a) == .lt then (b, a) else (a, b)
    if (← x.intersects y) || x.isAdjacent y then
      match ← union x y with
      | .item result => .ok (.item result)
      | _ => .error .internalError
    else .ok (.union [x, y])

/-- `union` with an item as argument: /repo/versions/version_sets.py 715-754, 974-990. -/
def union : Nat → TItem → TItem → Except PyErr TSet
  | 0, _, _ => .error .recursionError
  | lim + 1, range r, point v => do
    let self := range r
    if ← self.contains v then .ok (.item self)
    else if TVersion.optEq (some v) r.min then .ok (.item (← mkRange r.min r.max true r.includeMax))
    else if TVersion.optEq (some v) r.max then .ok (.item (← mkRange r.min r.max r.includeMin true))
    else unionOf (union lim) self (point v)
  | lim + 1, range r, range s => do
    let self := range r
    let other := range s
    if !(← if self.isAdjacent other then .ok true else self.intersects other) then unionOf (union lim) self other
    else
      let (min, includeMin) := if ← self.isLower other then (r.min, r.includeMin) else (s.min, s.includeMin)
      let (max, includeMax) := if ← self.isHigher other then (r.max, r.includeMax) else (s.max, s.includeMax)
      .ok (.item (← mkRange min max includeMin includeMax))
  | lim + 1, point v, point w => do
    if ← (point v).contains w then .ok (.item (point v)) else unionOf (union lim) (point v) (point w)
  | lim + 1, point v, range s => do
    if ← (range s).contains v then .ok (.item (range s)) else unionOf (union lim) (point v) (range s)

end TItem

namespace TSet

/-- `==`: /repo/versions/version_sets.py 340, 534-535, 1022. -/
def eq : TSet → TSet → Bool
  | empty, empty => true
  | item a, item b => a.eq b
  | union xs, union ys => xs.length == ys.length && (xs.zip ys).all (fun p => p.1.eq p.2)
  | _, _ => false

/-- `any(item.contains(version) for item in self.items)`. -/
def anyContains : List TItem → TVersion → Except PyErr Bool
  | [], _ => .ok false
  | i :: rest, v => do if ← i.contains v then .ok true else anyContains rest v

/-- /repo/versions/version_sets.py 356, 610, 957, 1106. -/
def contains : TSet → TVersion → Except PyErr Bool
  | empty, _ => .ok false
  | item i, v => i.contains v
  | union items, v => anyContains items v

end TSet

/-! The objects of the one-class model, with all their versions of the class `c`: what the parsers make for `version_type`
`c` (/repo/versions/parsers.py 98-146). -/

def Item.ofClass (c : Nat) : Item → TItem
  | .range r => .range ⟨r.min.map (⟨c, ·⟩), r.max.map (⟨c, ·⟩), r.includeMin, r.includeMax⟩
  | .point v => .point ⟨c, v⟩

def VSet.ofClass (c : Nat) : VSet → TSet
  | .empty => .empty
  | .item i => .item (i.ofClass c)
  | .union l => .union (l.map (·.ofClass c))

mutual
def Specifier.ofClass (c : Nat) : Specifier → TSpecifier
  | .never => .never
  | .always => .always
  | .one o => .one o.type ⟨c, o.version⟩
  | .any l => .any (Specifier.ofClassList c l)
  | .all l => .all (Specifier.ofClassList c l)
def Specifier.ofClassList (c : Nat) : List Specifier → List TSpecifier
  | [] => []
  | s :: rest => s.ofClass c :: Specifier.ofClassList c rest
end

end Verif
