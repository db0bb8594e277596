import Mathlib.Data.List.Sort
import Verif.Model.Version
/-!
# Version sets: /repo/versions/version_sets.py

`lim` is Python's recursion limit, counted in nested calls of `union` on ranges and points: the only unbounded
recursion in the module is `union` -> `VersionUnion.of` -> `merge` -> `union`.
-/

namespace Verif

/-- `==` on `Optional[Version]`. -/
def optEq : Option Version → Option Version → Bool
  | none, none => true
  | some a, some b => PyCmp.eq a b
  | _, _ => false

/-- Instances of `VersionRange` itself, /repo/versions/version_sets.py 390-397. -/
structure VRange where
  min : Option Version := none
  max : Option Version := none
  includeMin : Bool := false
  includeMax : Bool := false
  deriving DecidableEq, Repr

/-- `VersionItem`, /repo/versions/version_sets.py 1340: instances of `VersionRange` itself (`range`) or of its subclass
`VersionPoint` (926-946). -/
inductive Item
  | range (r : VRange)
  | point (version : Version)
  deriving DecidableEq, Repr

/-- `VersionSet`, /repo/versions/version_sets.py 1329: `VersionEmpty` (340), an item, or `VersionUnion` (1022-1026). -/
inductive VSet
  | empty
  | item (i : Item)
  | union (items : List Item)
  deriving DecidableEq, Repr

namespace Item

/-- The fields of the item; a point has `min = max = version`, both included: /repo/versions/version_sets.py 930-946. -/
def fields : Item → VRange
  | range r => r
  | point v => ⟨some v, some v, true, true⟩

/-- Field `min`. -/
def min (i : Item) : Option Version := i.fields.min
/-- Field `max`. -/
def max (i : Item) : Option Version := i.fields.max
/-- Field `include_min`. -/
def includeMin (i : Item) : Bool := i.fields.includeMin
/-- Field `include_max`. -/
def includeMax (i : Item) : Bool := i.fields.includeMax
/-- /repo/versions/version_sets.py 415-417. -/
def excludeMin (i : Item) : Bool := !i.includeMin
/-- /repo/versions/version_sets.py 419-421. -/
def excludeMax (i : Item) : Bool := !i.includeMax

/-- /repo/versions/version_sets.py 423-427. -/
def comparableMin (i : Item) : Ext Version :=
  match i.min with
  | none => .negInf
  | some v => .fin v

/-- /repo/versions/version_sets.py 429-433. -/
def comparableMax (i : Item) : Ext Version :=
  match i.max with
  | none => .posInf
  | some v => .fin v

/-- The constructor of `VersionRange` with `__attrs_post_init__`, /repo/versions/version_sets.py 399-407. -/
def mkRange (min max : Option Version) (includeMin includeMax : Bool) : Except PyErr Item :=
  let i := range ⟨min, max, includeMin, includeMax⟩
  if min.isNone && includeMin then .error .valueError
  else if max.isNone && includeMax then .error .valueError
  else if PyCmp.gt i.comparableMin i.comparableMax then .error .valueError
  else .ok i

/-- /repo/versions/version_sets.py 435-436. -/
def isClosed (i : Item) : Bool := i.includeMin && i.includeMax
/-- /repo/versions/version_sets.py 453-454. -/
def isUnbounded (i : Item) : Bool := i.min.isNone && i.max.isNone
/-- /repo/versions/version_sets.py 471-472. -/
def isEmptyOrPoint (i : Item) : Bool := PyCmp.eq i.comparableMin i.comparableMax

/-- /repo/versions/version_sets.py 474-484. -/
def isLower (self other : Item) : Bool :=
  if PyCmp.lt self.comparableMin other.comparableMin then true
  else if PyCmp.gt self.comparableMin other.comparableMin then false
  else self.includeMin && other.excludeMin

/-- /repo/versions/version_sets.py 486-496. -/
def isHigher (self other : Item) : Bool :=
  if PyCmp.lt self.comparableMax other.comparableMax then false
  else if PyCmp.gt self.comparableMax other.comparableMax then true
  else self.includeMax && other.excludeMax

/-- /repo/versions/version_sets.py 498-508. -/
def isStrictlyLower (self other : Item) : Bool :=
  if PyCmp.lt self.comparableMax other.comparableMin then true
  else if PyCmp.gt self.comparableMax other.comparableMin then false
  else self.excludeMax || other.excludeMin

/-- /repo/versions/version_sets.py 510-520. -/
def isStrictlyHigher (self other : Item) : Bool :=
  if PyCmp.gt self.comparableMin other.comparableMax then true
  else if PyCmp.lt self.comparableMin other.comparableMax then false
  else self.excludeMin || other.excludeMax

/-- /repo/versions/version_sets.py 522-523. -/
def isLeftAdjacent (self other : Item) : Bool := optEq self.max other.min && (self.includeMax == other.excludeMin)
/-- /repo/versions/version_sets.py 525-526. -/
def isRightAdjacent (self other : Item) : Bool := optEq self.min other.max && (self.includeMin == other.excludeMax)
/-- /repo/versions/version_sets.py 528-529. -/
def isAdjacent (self other : Item) : Bool := self.isLeftAdjacent other || self.isRightAdjacent other

/-- `__eq__`, /repo/versions/version_sets.py 411-413, 534-535 (`is_version_range` holds for points too). -/
def eq (self other : Item) : Bool :=
  optEq self.min other.min && optEq self.max other.max && (self.includeMin == other.includeMin) &&
    (self.includeMax == other.includeMax)

/-- /repo/versions/version_sets.py 552-581. -/
def compare (self other : Item) : Ordering :=
  if PyCmp.gt self.comparableMin other.comparableMin then .gt
  else if PyCmp.lt self.comparableMin other.comparableMin then .lt
  else if self.includeMin == other.excludeMin then (if self.includeMin then .lt else .gt)
  else if PyCmp.gt self.comparableMax other.comparableMax then .gt
  else if PyCmp.lt self.comparableMax other.comparableMax then .lt
  else if self.includeMax == other.excludeMax then (if self.includeMax then .gt else .lt)
  else .eq

/-- `__lt__`, /repo/versions/version_sets.py 540-541. -/
def lt (self other : Item) : Bool := self.compare other == .lt
/-- `__le__`, /repo/versions/version_sets.py 543-544. -/
def le (self other : Item) : Bool := self.compare other != .gt
/-- `__gt__`, /repo/versions/version_sets.py 546-547. -/
def gt (self other : Item) : Bool := self.compare other == .gt
/-- `__ge__`, /repo/versions/version_sets.py 549-550. -/
def ge (self other : Item) : Bool := self.compare other != .lt

/-- /repo/versions/version_sets.py 585-586, 948-949. -/
def isEmpty : Item → Bool
  | range r => (range r).isEmptyOrPoint && !(range r).isClosed
  | point _ => false

/-- /repo/versions/version_sets.py 588-589, 951-952. -/
def isPoint : Item → Bool
  | range r => (range r).isEmptyOrPoint && (range r).isClosed
  | point _ => true

/-- /repo/versions/version_sets.py 591-592, 954-955. -/
def isUniversal : Item → Bool
  | range r => (range r).isUnbounded
  | point _ => false

/-- `version_unchecked`, /repo/versions/version_sets.py 601-608 (versions are truthy). -/
def versionUnchecked (i : Item) : Except PyErr Version :=
  match i.min with
  | some v => .ok v
  | none => match i.max with
    | some v => .ok v
    | none => .error .valueError

/-- `version`: the property, /repo/versions/version_sets.py 594-599; the field of a point, 930. -/
def version : Item → Except PyErr Version
  | range r => if (range r).isPoint then (range r).versionUnchecked else .error .valueError
  | point v => .ok v

/-- /repo/versions/version_sets.py 610-626, 957-959. -/
def contains : Item → Version → Bool
  | range r, version =>
    let self := range r
    if PyCmp.lt (.fin version) self.comparableMin then false
    else if self.excludeMin && PyCmp.eq (.fin version) self.comparableMin then false
    else if PyCmp.gt (.fin version) self.comparableMax then false
    else if self.excludeMax && PyCmp.eq (.fin version) self.comparableMax then false
    else true
  | point v, version => PyCmp.eq v version

/-- `includes` with an item as argument: /repo/versions/version_sets.py 634-638, 963-966. -/
def includesItem : Item → Item → Bool
  | range r, point v => (range r).contains v
  | range r, range s => !(range s).isLower (range r) && !(range s).isHigher (range r)
  | point _, range s => (range s).isEmpty
  | point v, point w => (point w).isEmpty || (point v).contains w

/-- `intersects` with an item as argument: /repo/versions/version_sets.py 649-653, 660-661, 968-969. -/
def intersectsItem : Item → Item → Bool
  | range r, point v => (range r).contains v
  | range r, range s => !(range s).isStrictlyLower (range r) && !(range s).isStrictlyHigher (range r)
  | point v, other => other.contains v

end Item

/-- `UNIVERSAL_SET`, /repo/versions/version_sets.py 923. -/
def universalItem : Item := .range {}

namespace VSet

/-- `UNIVERSAL_SET`, /repo/versions/version_sets.py 923. -/
def universal : VSet := .item universalItem

/-- `==`: /repo/versions/version_sets.py 340 (attrs, no fields), 534-535, 1022 (attrs, `items`). An item is never equal
to an empty set or a union. -/
def eq : VSet → VSet → Bool
  | empty, empty => true
  | item a, item b => a.eq b
  | union xs, union ys => xs.length == ys.length && (xs.zip ys).all (fun p => p.1.eq p.2)
  | _, _ => false

/-- /repo/versions/version_sets.py 344, 585, 948, 1100. -/
def isEmpty : VSet → Bool
  | empty => true
  | item i => i.isEmpty
  | union _ => false

/-- /repo/versions/version_sets.py 347, 591, 954, 1103. -/
def isUniversal : VSet → Bool
  | empty => false
  | item i => i.isUniversal
  | union _ => false

/-- /repo/versions/version_sets.py 356, 610, 957, 1106. -/
def contains : VSet → Version → Bool
  | empty, _ => false
  | item i, v => i.contains v
  | union items, v => items.any (fun i => i.contains v)

/-- /repo/versions/version_sets.py 1040-1046. -/
def extract : VSet → List Item
  | empty => []
  | item i => [i]
  | union items => items

/-- The constructor of `VersionUnion` with its validator, /repo/versions/version_sets.py 1009-1014, 1026-1038. -/
def mkUnion (items : List Item) : Except PyErr VSet :=
  if items.isEmpty then .error .valueError
  else if items.length == 1 then .error .valueError
  else .ok (.union items)

/-- The loop of `merge`, /repo/versions/version_sets.py 1060-1079. `merged` is kept in reverse: its head is
`last(merged)`. `union` is the method `union` of items. -/
def mergeLoop (union : Item → Item → Except PyErr VSet) : List Item → List Item → Except PyErr (List Item)
  | merged, [] => .ok merged
  | [], it :: rest => mergeLoop union [it] rest
  | lastItem :: merged, it :: rest =>
    if lastItem.intersectsItem it || lastItem.isAdjacent it then do
      match ← union lastItem it with
      | .item result => mergeLoop union (result :: merged) rest
      | _ => .error .internalError
    else mergeLoop union (it :: lastItem :: merged) rest

/-- `list.sort`, /repo/versions/version_sets.py 1058: stable, by the `<` of items. -/
def sortItems (items : List Item) : List Item := items.insertionSort (fun a b => (!b.lt a) = true)

/-- /repo/versions/version_sets.py 1048-1092 (`merge`, `of`, `of_iterable`), on the extracted items. -/
def mergeItems (union : Item → Item → Except PyErr VSet) (extracted : List Item) : Except PyErr VSet :=
  if extracted.isEmpty then .ok .empty
  else if extracted.any Item.isUniversal then .ok universal
  else do
    let merged ← mergeLoop union [] (sortItems extracted)
    match merged with
    | [i] => .ok (.item i)
    | merged => mkUnion merged.reverse

end VSet

namespace Item

/-- `union` with an item as argument: /repo/versions/version_sets.py 715-754, 974-990. -/
def unionItem : Nat → Item → Item → Except PyErr VSet
  | 0, _, _ => .error .recursionError
  | lim + 1, range r, point v =>
    let self := range r
    if self.contains v then .ok (.item self)
    else if optEq (some v) self.min then do
      .ok (.item (← mkRange self.min self.max true self.includeMax))
    else if optEq (some v) self.max then do
      .ok (.item (← mkRange self.min self.max self.includeMin true))
    else VSet.mergeItems (unionItem lim) [self, point v]
  | lim + 1, range r, range s =>
    let self := range r
    let other := range s
    if !self.isAdjacent other && !self.intersectsItem other then VSet.mergeItems (unionItem lim) [self, other]
    else
      let (min, includeMin) := if self.isLower other then (self.min, self.includeMin) else (other.min, other.includeMin)
      let (max, includeMax) := if self.isHigher other then (self.max, self.includeMax) else (other.max, other.includeMax)
      do .ok (.item (← mkRange min max includeMin includeMax))
  | lim + 1, point v, point w =>
    if (point v).contains w then .ok (.item (point v)) else VSet.mergeItems (unionItem lim) [point v, point w]
  | lim + 1, point v, range s =>
    if (range s).contains v then .ok (.item (range s)) else VSet.mergeItems (unionItem lim) [point v, range s]

/-- `intersection` with an item as argument: /repo/versions/version_sets.py 667-704, 971-972. -/
def intersectionItem : Item → Item → Except PyErr VSet
  | range r, point v => .ok (if (range r).contains v then .item (point v) else .empty)
  | point v, other => .ok (if other.contains v then .item (point v) else .empty)
  | range r, range s =>
    let self := range r
    let other := range s
    if self.isLower other && self.isStrictlyLower other then .ok .empty
    else if !self.isLower other && self.isStrictlyHigher other then .ok .empty
    else
      let (min, includeMin) := if self.isLower other then (other.min, other.includeMin) else (self.min, self.includeMin)
      let (max, includeMax) := if self.isHigher other then (other.max, other.includeMax) else (self.max, self.includeMax)
      do
        let intersection ← mkRange min max includeMin includeMax
        if intersection.isPoint then do
          .ok (.item (point (← intersection.version)))
        else .ok (.item intersection)

/-- `VersionUnion.of` of two items. -/
def unionOf (lim : Nat) (items : List Item) : Except PyErr VSet := VSet.mergeItems (unionItem lim) items

/-- `VersionPoint(v)` where the code passes an `Optional[Version]` it knows to be a version,
/repo/versions/version_sets.py 798, 809. -/
def pointOf : Option Version → Except PyErr Item
  | some v => .ok (point v)
  | none => .error .typeError

/-- The variable `before` of `difference`, /repo/versions/version_sets.py 792-801. -/
def differenceBefore (self other : Item) : Except PyErr (Option Item) :=
  if !self.isLower other then .ok none
  else if optEq self.min other.min then do .ok (some (← pointOf self.min))
  else do .ok (some (← mkRange self.min other.min self.includeMin other.excludeMin))

/-- The variable `after` of `difference`, /repo/versions/version_sets.py 803-812. -/
def differenceAfter (self other : Item) : Except PyErr (Option Item) :=
  if !self.isHigher other then .ok none
  else if optEq self.max other.max then do .ok (some (← pointOf self.max))
  else do .ok (some (← mkRange other.max self.max other.excludeMax self.includeMax))

/-- `difference` with an item as argument: /repo/versions/version_sets.py 765-826, 992-993. -/
def differenceItem (lim : Nat) : Item → Item → Except PyErr VSet
  | range r, point v =>
    let self := range r
    if !self.contains v then .ok (.item self)
    else if optEq (some v) self.min then
      if self.excludeMin then .ok (.item self)
      else do .ok (.item (← mkRange self.min self.max false self.includeMax))
    else if optEq (some v) self.max then
      if self.excludeMax then .ok (.item self)
      else do .ok (.item (← mkRange self.min self.max self.includeMin false))
    else do
      let left ← mkRange self.min (some v) self.includeMin false
      let right ← mkRange (some v) self.max false self.includeMax
      unionOf lim [left, right]
  | range r, range s =>
    let self := range r
    let other := range s
    if !self.intersectsItem other then .ok (.item self)
    else do
      let before ← differenceBefore self other
      let after ← differenceAfter self other
      match before, after with
      | none, none => .ok .empty
      | none, some after => .ok (.item after)
      | some before, none => .ok (.item before)
      | some before, some after => unionOf lim [before, after]
  | point v, other => .ok (if other.contains v then .empty else .item (point v))

/-- `difference_iterator`, /repo/versions/version_sets.py 833-853; the items yielded, in order. `left, right =
difference.items` raises `ValueError` unless there are exactly two. -/
def differenceIterator (lim : Nat) : Item → List Item → Except PyErr (List Item)
  | current, [] => .ok [current]
  | current, item :: rest =>
    if item.isStrictlyLower current then differenceIterator lim current rest
    else if item.isStrictlyHigher current then .ok [current]
    else do
      match ← current.differenceItem lim item with
      | .union items => match items with
        | [left, right] => do .ok (left :: (← differenceIterator lim right rest))
        | _ => .error .valueError
      | .item difference => differenceIterator lim difference rest
      | .empty => differenceIterator lim current rest

end Item

namespace VSet

/-- The loop of `VersionUnion.includes`, /repo/versions/version_sets.py 1115-1125. -/
def includesLoop : List Item → List Item → Bool
  | _, [] => true
  | [], _ :: _ => false
  | selfItem :: selfItems, it :: items =>
    if selfItem.includesItem it then includesLoop (selfItem :: selfItems) items
    else includesLoop selfItems (it :: items)
  termination_by a b => a.length + b.length

/-- `includes`: /repo/versions/version_sets.py 350-351, 630-643, 963-966, 1111-1125. -/
def includes : VSet → VSet → Bool
  | empty, other => other.isEmpty
  | item (.range _), empty => true
  | item (.range r), item j => (Item.range r).includesItem j
  | item (.range r), union items => items.all (fun j => (Item.range r).includesItem j)
  | item (.point _), empty => true
  | item (.point v), item j => (Item.point v).includesItem j
  | item (.point _), union _ => false
  | union items, other => includesLoop items other.extract

/-- The loop of `VersionUnion.intersects`, /repo/versions/version_sets.py 1131-1144. -/
def intersectsLoop : List Item → List Item → Bool
  | [], _ => false
  | _ :: _, [] => false
  | selfItem :: selfItems, it :: items =>
    if selfItem.intersectsItem it then true
    else if it.isHigher selfItem then intersectsLoop selfItems (it :: items)
    else intersectsLoop (selfItem :: selfItems) items
  termination_by a b => a.length + b.length

/-- `intersects`: /repo/versions/version_sets.py 353-354, 645-658, 968-969, 1127-1144. -/
def intersects : VSet → VSet → Bool
  | empty, _ => false
  | item (.range _), empty => false
  | item (.range r), item j => (Item.range r).intersectsItem j
  | item (.range r), union items => items.any (fun j => (Item.range r).intersectsItem j)
  | item (.point v), other => other.contains v
  | union items, other => intersectsLoop items other.extract

/-- `intersection_iterator`, /repo/versions/version_sets.py 1146-1163. -/
def intersectionLoop : List Item → List Item → Except PyErr (List Item)
  | [], _ => .ok []
  | _ :: _, [] => .ok []
  | selfItem :: selfItems, it :: items => do
    let intersection ← selfItem.intersectionItem it
    let rest ← if it.isHigher selfItem then intersectionLoop selfItems (it :: items)
      else intersectionLoop (selfItem :: selfItems) items
    match intersection with
    | .item i => .ok (i :: rest)
    | _ => .ok rest
  termination_by a b => a.length + b.length

/-- `VersionUnion.of` / `of_iterable` / `merge`, /repo/versions/version_sets.py 1048-1092. -/
def unionOf (lim : Nat) (sets : List VSet) : Except PyErr VSet :=
  mergeItems (Item.unionItem lim) (sets.flatMap extract)

/-- `intersection`: /repo/versions/version_sets.py 359-360, 663-709, 971-972, 1165-1166. -/
def intersection (lim : Nat) : VSet → VSet → Except PyErr VSet
  | empty, _ => .ok .empty
  | item (.range _), empty => .ok .empty
  | item (.range r), item j => (Item.range r).intersectionItem j
  | item (.range r), union items => do
    unionOf lim ((← intersectionLoop items [.range r]).map .item)
  | item (.point v), other => .ok (if other.contains v then .item (.point v) else .empty)
  | union items, other => do
    unionOf lim ((← intersectionLoop items other.extract).map .item)

/-- `union`: /repo/versions/version_sets.py 362-363, 711-759, 974-990, 1168-1169. -/
def unionWith (lim : Nat) : VSet → VSet → Except PyErr VSet
  | empty, other => .ok other
  | item i, empty => .ok (.item i)
  | item i, item j => i.unionItem lim j
  | item (.range r), union items => unionOf lim [union items, item (.range r)]
  | item (.point v), union items =>
    if (union items).contains v then .ok (union items) else unionOf lim [item (.point v), union items]
  | union items, other => unionOf lim [union items, other]

/-- `ItemsDifference`, /repo/versions/version_sets.py 1203-1213. `result` is in reverse order. `prepared` is always true
when `step` runs (`compute`, 1321-1326). -/
structure Diff where
  items : List Item
  otherItems : List Item
  current : Option Item
  otherCurrent : Option Item
  result : List Item

namespace Diff

/-- /repo/versions/version_sets.py 1229-1246. -/
def nextOtherCurrent (d : Diff) : Diff × Bool :=
  match d.otherItems with
  | other :: rest => ({ d with otherCurrent := some other, otherItems := rest }, true)
  | [] =>
    let result := match d.current with
      | some current => current :: d.result
      | none => d.result
    ({ d with otherCurrent := none, items := [], result := d.items.reverse ++ result }, false)

/-- /repo/versions/version_sets.py 1248-1261. -/
def nextCurrent (d : Diff) (includeCurrent : Bool := true) : Diff × Bool :=
  let result := match includeCurrent, d.current with
    | true, some current => current :: d.result
    | _, _ => d.result
  match d.items with
  | [] => ({ d with result := result }, false)
  | it :: rest => ({ d with result := result, current := some it, items := rest }, true)

/-- /repo/versions/version_sets.py 1271-1310. -/
def step (lim : Nat) (d : Diff) : Except PyErr (Diff × Bool) :=
  match d.current, d.otherCurrent with
  | some current, some otherCurrent =>
    if otherCurrent.isStrictlyLower current then .ok d.nextOtherCurrent
    else if otherCurrent.isStrictlyHigher current then .ok d.nextCurrent
    else do
      match ← current.differenceItem lim otherCurrent with
      | .union items => match items with
        | [left, right] =>
          .ok { d with result := left :: d.result, current := some right }.nextOtherCurrent
        | _ => .error .valueError
      | .empty => .ok (d.nextCurrent false)
      | .item difference =>
        let d := { d with current := some difference }
        if difference.isHigher otherCurrent then .ok d.nextOtherCurrent else .ok d.nextCurrent
  | _, _ => .ok (d, false)

/-- /repo/versions/version_sets.py 1312-1319, as a loop of at most `fuel` rounds; `recursionError` if it is still
running after that (it never is, see `diffLoop_spec`). -/
def loop (lim : Nat) : Nat → Diff → Except PyErr Diff
  | 0, _ => .error .recursionError
  | fuel + 1, d => do
    match ← d.step lim with
    | (d, true) => loop lim fuel d
    | (d, false) => .ok d

/-- `compute` with `prepare`, /repo/versions/version_sets.py 1263-1269, 1321-1326. -/
def compute (lim : Nat) (items otherItems : List Item) : Except PyErr (List Item) := do
  let d ← loop lim (items.length + otherItems.length + 1)
    ⟨items.tail, otherItems.tail, items.head?, otherItems.head?, []⟩
  .ok d.result.reverse

end Diff

/-- `difference`: /repo/versions/version_sets.py 365-366, 761-831, 992-993, 1171-1173. -/
def difference (lim : Nat) : VSet → VSet → Except PyErr VSet
  | empty, _ => .ok .empty
  | item (.range r), empty => .ok (item (.range r))
  | item (.range r), item j => (Item.range r).differenceItem lim j
  | item (.range r), union items => do
    unionOf lim ((← (Item.range r).differenceIterator lim items).map .item)
  | item (.point v), other => .ok (if other.contains v then .empty else .item (.point v))
  | union items, other => do
    unionOf lim ((← Diff.compute lim items other.extract).map .item)

/-- `complement`: /repo/versions/version_sets.py 371-372, 855-856, 995-996, 1175-1176. -/
def complement (lim : Nat) : VSet → Except PyErr VSet
  | empty => .ok universal
  | other => universal.difference lim other

/-- `symmetric_difference`: /repo/versions/version_sets.py 153-162 (ranges and points), 368-369 (empty). `VersionUnion`
(1023) does not inherit `VersionSetProtocol` and has no such method. -/
def symmetricDifference (lim : Nat) : VSet → VSet → Except PyErr VSet
  | empty, other => .ok other
  | item i, other => do
    let u ← (item i).unionWith lim other
    let n ← (item i).intersection lim other
    u.difference lim n
  | union _, _ => .error .attributeError

/-- `VersionUnion.exclude_version`, /repo/versions/version_sets.py 1094-1098. -/
def excludeVersion (lim : Nat) (items : List Item) : Except PyErr (Option Version) := do
  match ← (union items).complement lim with
  | .item (.point v) => .ok (some v)
  | _ => .ok none

end VSet

end Verif
