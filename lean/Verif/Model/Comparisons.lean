import Verif.Model.Specifiers
/-!
# Comparing objects of any two classes

Python evaluates `a < b` by calling `a.__lt__(b)`; when that returns `NotImplemented` it calls the reflected `b.__gt__(a)`,
and when that returns `NotImplemented` too, it raises `TypeError`. `==` and `!=` reflect to themselves and fall back to
identity. When the class of `b` is a proper subclass of the class of `a`, the method of `b` is called first.
-/

namespace Verif

/-- An object of the package that can be compared with others. The classes are those of segments/epoch.py, release.py, tags.py,
local.py, version.py, operators.py (664, 806), specifiers.py, version_sets.py and types.py (29, 70). -/
inductive Obj
  | epoch (e : Epoch)
  | release (r : Release)
  | tag (cls : TagClass) (t : Tag)
  | local_ (l : Local)
  | version (v : Version)
  | opType (t : OpType)
  | operator (o : Operator)
  | specifier (s : Specifier)
  | empty
  | item (i : Item)
  | union (l : List Item)
  | infinity
  | negativeInfinity

/-- The ordering operators. -/
inductive CmpOp
  | lt | le | gt | ge
  deriving DecidableEq, Repr

/-- The reflected operator, called on the right operand. -/
def CmpOp.reflected : CmpOp → CmpOp
  | lt => gt
  | le => ge
  | gt => lt
  | ge => le

def PyCmp.op {α : Type} [PyCmp α] : CmpOp → α → α → Bool
  | .lt => PyCmp.lt
  | .le => PyCmp.le
  | .gt => PyCmp.gt
  | .ge => PyCmp.ge

def Item.op : CmpOp → Item → Item → Bool
  | .lt => Item.lt
  | .le => Item.le
  | .gt => Item.gt
  | .ge => Item.ge

namespace Obj

/-- /repo/versions/types.py 61-67: `item is infinity`. -/
def isInfinity : Obj → Bool
  | infinity => true
  | _ => false
/-- /repo/versions/types.py 102-108. -/
def isNegativeInfinity : Obj → Bool
  | negativeInfinity => true
  | _ => false
/-- /repo/versions/types.py 117-123. -/
def isAnyInfinity (x : Obj) : Bool := x.isInfinity || x.isNegativeInfinity

/-- The five classes of specifiers: attrs compares objects of one class only. -/
def specClass : Specifier → Nat
  | .never => 0
  | .always => 1
  | .one _ => 2
  | .any _ => 3
  | .all _ => 4

/-- `__eq__`; `none` is `NotImplemented`. The methods generated by attrs return it unless both classes are the same.
`OperatorType`: /repo/versions/operators.py 758-766, where `super().__eq__` is `object.__eq__`. Ranges and points:
/repo/versions/version_sets.py 534-535, which returns `False` for everything else. Infinities: /repo/versions/types.py 35-36, 76-77. -/
def eqMethod : Obj → Obj → Option Bool
  | epoch a, epoch b => some (PyCmp.eq a b)
  | release a, release b => some (PyCmp.eq a b)
  | tag c a, tag d b => if c = d then some (PyCmp.eq a b) else none
  | local_ a, local_ b => some (PyCmp.eq a b)
  | version a, version b => some (PyCmp.eq a b)
  | opType a, opType b =>
    if (a.inEquals && b.inEquals) || (a.inWildcardEquals && b.inWildcardEquals) then some true
    else if a = b then some true else none
  | operator a, operator b => some (a.eq b)
  | specifier a, specifier b => if specClass a = specClass b then some (a.eq b) else none
  | empty, empty => some (VSet.eq .empty .empty)
  | union a, union b => some (VSet.eq (.union a) (.union b))
  | item a, item b => some (a.eq b)
  | item _, _ => some false
  | infinity, x => some x.isInfinity
  | negativeInfinity, x => some x.isNegativeInfinity
  | _, _ => none

/-- `__ne__`. attrs and `object` negate what `__eq__` returns; ranges: /repo/versions/version_sets.py 537-538; infinities:
/repo/versions/types.py 38-39, 79-80 (`self is not other`). -/
def neMethod : Obj → Obj → Option Bool
  | infinity, x => some (!x.isInfinity)
  | negativeInfinity, x => some (!x.isNegativeInfinity)
  | a, b => (a.eqMethod b).map (!·)

/-- `__lt__`, `__le__`, `__gt__`, `__ge__`. Generated by attrs (`order=True`) for the segments and versions; ranges and points:
/repo/versions/version_sets.py 540-550, where `compare` (552-554) reads `other.comparable_min`; infinities:
/repo/versions/types.py 41-51, 82-92. The other classes have none. -/
def ordMethod (op : CmpOp) : Obj → Obj → Option (Except PyErr Bool)
  | epoch a, epoch b => some (.ok (PyCmp.op op a b))
  | release a, release b => some (.ok (PyCmp.op op a b))
  | tag c a, tag d b => if c = d then some (.ok (PyCmp.op op a b)) else none
  | local_ a, local_ b => some (.ok (PyCmp.op op a b))
  | version a, version b => some (.ok (PyCmp.op op a b))
  | item a, item b => some (.ok (Item.op op a b))
  | item _, _ => some (.error .attributeError)
  | infinity, x => some (.ok (match op with
    | .lt => false
    | .le => x.isInfinity
    | .gt => !x.isInfinity
    | .ge => true))
  | negativeInfinity, x => some (.ok (match op with
    | .lt => !x.isNegativeInfinity
    | .le => true
    | .gt => false
    | .ge => x.isNegativeInfinity))
  | _, _ => none

/-- The class of `b` is a proper subclass of the class of `a`: `VersionPoint` of `VersionRange`
(/repo/versions/version_sets.py 927), `SpecifierOne` of `Operator` (/repo/versions/specifiers.py 80). -/
def subclassFirst : Obj → Obj → Bool
  | item (.range _), item (.point _) => true
  | operator _, specifier (.one _) => true
  | _, _ => false

/-- `a is b`, for two objects of which neither `__eq__` decides. These have different classes, or are members of
`OperatorType`, which exist once. -/
def identical : Obj → Obj → Bool
  | opType a, opType b => decide (a = b)
  | _, _ => false

/-- `a == b`. -/
def eq (a b : Obj) : Bool :=
  let answer := if subclassFirst a b then (b.eqMethod a).or (a.eqMethod b) else (a.eqMethod b).or (b.eqMethod a)
  answer.getD (identical a b)

/-- `a != b`. -/
def ne (a b : Obj) : Bool :=
  let answer := if subclassFirst a b then (b.neMethod a).or (a.neMethod b) else (a.neMethod b).or (b.neMethod a)
  answer.getD (!identical a b)

/-- `a < b`, `a <= b`, `a > b`, `a >= b`. -/
def ord (op : CmpOp) (a b : Obj) : Except PyErr Bool :=
  let answer := if subclassFirst a b then (ordMethod op.reflected b a).or (ordMethod op a b)
    else (ordMethod op a b).or (ordMethod op.reflected b a)
  answer.getD (.error .typeError)

/-- `-x`: /repo/versions/types.py 53-54, 94-95. The other classes have no `__neg__`. -/
def neg : Obj → Except PyErr Obj
  | infinity => .ok negativeInfinity
  | negativeInfinity => .ok infinity
  | _ => .error .typeError

end Obj

/-- `repr`: /repo/versions/types.py 24-26, 32-33, 73-74. -/
def Infinity.repr : PyStr := "infinity".toList
def NegativeInfinity.repr : PyStr := "-".toList ++ "infinity".toList

end Verif
