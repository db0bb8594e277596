import Verif.Model.Comparisons
import Verif.Model.SetOperators
/-!
# Version sets and operands of any class

The methods of version sets, called with an object of the package that need not be a version set, and `contains` with one
that need not be a version. Only the four classes of version sets have methods `is_empty` and `contains`; calling these on
anything else raises `AttributeError`. For operands that are version sets, the functions of Model/VersionSets.lean and
Model/SetOperators.lean are the same code.
-/

namespace Verif

namespace Obj

/-- The object that is a version set. -/
def ofVSet : VSet → Obj
  | .empty => .empty
  | .item i => .item i
  | .union items => .union items

/-- The version set, if the object is one: /repo/versions/version_sets.py 326-333. -/
def asSet : Obj → Option VSet
  | .empty => some .empty
  | .item i => some (.item i)
  | .union items => some (.union items)
  | _ => none

/-- `x.is_empty()`. -/
def isEmpty (x : Obj) : Except PyErr Bool :=
  match x.asSet with
  | some s => .ok s.isEmpty
  | none => .error .attributeError

/-- `VersionUnion.extract(x)`, /repo/versions/version_sets.py 1040-1046: nothing, unless the object is a union or an item. -/
def extract : Obj → List Item
  | .union items => items
  | .item i => [i]
  | _ => []

/-- `comparable_min` and `comparable_max`, /repo/versions/version_sets.py 423-433. -/
def lowEnd (i : Item) : Obj :=
  match i.min with
  | none => .negativeInfinity
  | some v => .version v
def highEnd (i : Item) : Obj :=
  match i.max with
  | none => .infinity
  | some v => .version v

/-- `contains` of ranges and points: /repo/versions/version_sets.py 610-626, 957-959. -/
def itemContains : Item → Obj → Except PyErr Bool
  | .range r, x => do
    if ← ord .lt x (lowEnd (.range r)) then .ok false
    else if (Item.range r).excludeMin && eq x (lowEnd (.range r)) then .ok false
    else if ← ord .gt x (highEnd (.range r)) then .ok false
    else if (Item.range r).excludeMax && eq x (highEnd (.range r)) then .ok false
    else .ok true
  | .point v, x => .ok (eq (.version v) x)

/-- `any(item.contains(x) for item in items)`, /repo/versions/version_sets.py 1106-1107. -/
def anyContains : List Item → Obj → Except PyErr Bool
  | [], _ => .ok false
  | i :: items, x => do
    if ← itemContains i x then .ok true else anyContains items x

/-- `s.contains(x)`, /repo/versions/version_sets.py 356-357, 610-628, 957-961, 1106-1109. `accepts` is the same method
(105-115, 628, 961, 1109). -/
def contains : Obj → Obj → Except PyErr Bool
  | .empty, _ => .ok false
  | .item i, x => itemContains i x
  | .union items, x => anyContains items x
  | _, _ => .error .attributeError

end Obj

namespace VSet

/-- `self.includes(x)`: /repo/versions/version_sets.py 350-351, 630-643, 963-966, 1111-1125. -/
def includesObj : VSet → Obj → Except PyErr Bool
  | empty, x => x.isEmpty
  | item (.range r), x => match x.asSet with
    | some s => .ok ((item (.range r)).includes s)
    | none => .error .typeError
  | item (.point v), x => do
    if ← x.isEmpty then .ok true
    else match x with
      | .item (.point w) => .ok ((Item.point v).contains w)
      | _ => .ok false
  | union items, x => .ok (includesLoop items x.extract)

/-- `self.intersects(x)`: /repo/versions/version_sets.py 353-354, 645-658, 968-969, 1127-1144. -/
def intersectsObj : VSet → Obj → Except PyErr Bool
  | empty, _ => .ok false
  | item (.range r), x => match x.asSet with
    | some s => .ok ((item (.range r)).intersects s)
    | none => .error .typeError
  | item (.point v), x => x.contains (.version v)
  | union items, x => .ok (intersectsLoop items x.extract)

/-- `VersionUnion.of(*xs)`, /repo/versions/version_sets.py 1048-1092. -/
def unionOfObjs (lim : Nat) (xs : List Obj) : Except PyErr VSet := mergeItems (Item.unionItem lim) (xs.flatMap Obj.extract)

/-- `self.intersection(x)`: /repo/versions/version_sets.py 359-360, 663-709, 971-972, 1165-1166. -/
def intersectionObj (lim : Nat) : VSet → Obj → Except PyErr VSet
  | empty, _ => .ok .empty
  | item (.range r), x => match x.asSet with
    | some s => (item (.range r)).intersection lim s
    | none => .error .typeError
  | item (.point v), x => do
    if ← x.contains (.version v) then .ok (item (.point v)) else .ok empty
  | union items, x => do
    unionOfObjs lim ((← intersectionLoop items x.extract).map .item)

/-- `self.union(x)`: /repo/versions/version_sets.py 362-363, 711-759, 974-990, 1168-1169. The union of a version with an object
that is not a set asks the object whether it contains the version (984) before it would raise `TypeError` (990). -/
def unionObj (lim : Nat) : VSet → Obj → Except PyErr Obj
  | empty, x => .ok x
  | item (.range r), x => match x.asSet with
    | some s => ((item (.range r)).unionWith lim s).map Obj.ofVSet
    | none => .error .typeError
  | item (.point v), x => match x.asSet with
    | some s => ((item (.point v)).unionWith lim s).map Obj.ofVSet
    | none => do
      if ← x.contains (.version v) then .ok x else .error .typeError
  | union items, x => (unionOfObjs lim [.union items, x]).map Obj.ofVSet

/-- `self.difference(x)`: /repo/versions/version_sets.py 365-366, 761-831, 992-993, 1171-1173. -/
def differenceObj (lim : Nat) : VSet → Obj → Except PyErr VSet
  | empty, _ => .ok .empty
  | item (.range r), x => match x.asSet with
    | some s => (item (.range r)).difference lim s
    | none => .error .typeError
  | item (.point v), x => do
    if ← x.contains (.version v) then .ok empty else .ok (item (.point v))
  | union items, x => do
    unionOfObjs lim ((← Diff.compute lim items x.extract).map .item)

/-- `self.symmetric_difference(x)`: /repo/versions/version_sets.py 153-162, 368-369; unions have no such method. -/
def symmetricDifferenceObj (lim : Nat) : VSet → Obj → Except PyErr Obj
  | empty, x => .ok x
  | item i, x => do
    let u ← (item i).unionObj lim x
    let n ← (item i).intersectionObj lim x
    match u.asSet with
    | some s => (s.difference lim n).map Obj.ofVSet
    | none => .error .attributeError
  | union _, _ => .error .attributeError

end VSet

namespace Obj

/-- `a & x`, `a | x`, `a - x`, `a ^ x` for any two objects: /repo/versions/version_sets.py 172-181, 195-204, 217-226, 240-250.
No class of the package has reflected methods, and only the empty set, ranges and points have the methods themselves. -/
def binary (lim : Nat) (op : SetOp) (a x : Obj) : Except PyErr Obj :=
  let method (s : VSet) : Except PyErr Obj := match op with
    | .and => (s.intersectionObj lim x).map ofVSet
    | .or => s.unionObj lim x
    | .sub => (s.differenceObj lim x).map ofVSet
    | .xor => s.symmetricDifferenceObj lim x
  match a with
  | .empty => method .empty
  | .item i => method (.item i)
  | _ => .error .typeError

/-- `x in a`: /repo/versions/version_sets.py 164-170. -/
def isIn (x a : Obj) : Except PyErr Bool :=
  match a with
  | .empty => contains .empty x
  | .item i => contains (.item i) x
  | _ => .error .typeError

end Obj

end Verif
