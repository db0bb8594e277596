/-!
# Python values used by the model

Exceptions, comparison operators of `int`, `str`, tuples and the infinities, and sequence indexing.
-/

namespace Verif

/-- Python `str`. -/
abbrev PyStr := List Char

/-- Exceptions raised by the modelled code. `ParseVersionError`, `ParseSpecificationError` and `ParseTagError`
are the subclasses of `ValueError` of /repo/versions/errors.py 10-23. `internalError` is both
/repo/versions/errors.py 26-27 and the `sqlite3.InternalError` imported by mistake in
/repo/versions/parsers.py 2 (neither is ever raised, see the theorems). -/
inductive PyErr
  | valueError
  | typeError
  | indexError
  | attributeError
  | recursionError
  | internalError
  | parseVersionError
  | parseSpecificationError
  | parseTagError
  deriving DecidableEq, Repr

/-- The rich comparison operators of a Python class, each its own function. (`!=` is the negation of `==`:
Model/Comparisons.lean and `C89_equality`.) -/
class PyCmp (α : Type) where
  eq : α → α → Bool
  lt : α → α → Bool
  le : α → α → Bool
  gt : α → α → Bool
  ge : α → α → Bool

/-- Python `int`. -/
instance : PyCmp Int where
  eq a b := decide (a = b)
  lt a b := decide (a < b)
  le a b := decide (a ≤ b)
  gt a b := decide (b < a)
  ge a b := decide (b ≤ a)

/-- A one-character string: compared by code point. -/
instance : PyCmp Char where
  eq a b := decide (a.toNat = b.toNat)
  lt a b := decide (a.toNat < b.toNat)
  le a b := decide (a.toNat ≤ b.toNat)
  gt a b := decide (b.toNat < a.toNat)
  ge a b := decide (b.toNat ≤ a.toNat)

/-- CPython's `tuplerichcompare`/`unicode_compare`: skip equal items; at the first difference use `el`; if one
sequence ends first compare the lengths with `sz`. -/
def seqCmp {α : Type} [PyCmp α] (sz : Nat → Nat → Bool) (el : α → α → Bool) : List α → List α → Bool
  | [], ys => sz 0 ys.length
  | _ :: xs, [] => sz (xs.length + 1) 0
  | x :: xs, y :: ys => if PyCmp.eq x y then seqCmp sz el xs ys else el x y

/-- Homogeneous tuples, and strings (as sequences of one-character strings). -/
instance {α : Type} [PyCmp α] : PyCmp (List α) where
  eq := seqCmp (fun m n => decide (m = n)) (fun _ _ => false)
  lt := seqCmp (fun m n => decide (m < n)) PyCmp.lt
  le := seqCmp (fun m n => decide (m ≤ n)) PyCmp.le
  gt := seqCmp (fun m n => decide (n < m)) PyCmp.gt
  ge := seqCmp (fun m n => decide (n ≤ m)) PyCmp.ge

/-- Tuples of fixed length with items of different types (an n-tuple is a nested pair). -/
instance {α β : Type} [PyCmp α] [PyCmp β] : PyCmp (α × β) where
  eq a b := PyCmp.eq a.1 b.1 && PyCmp.eq a.2 b.2
  lt a b := if PyCmp.eq a.1 b.1 then PyCmp.lt a.2 b.2 else PyCmp.lt a.1 b.1
  le a b := if PyCmp.eq a.1 b.1 then PyCmp.le a.2 b.2 else PyCmp.le a.1 b.1
  gt a b := if PyCmp.eq a.1 b.1 then PyCmp.gt a.2 b.2 else PyCmp.gt a.1 b.1
  ge a b := if PyCmp.eq a.1 b.1 then PyCmp.ge a.2 b.2 else PyCmp.ge a.1 b.1

/-- A value, or one of the singletons of /repo/versions/types.py 57 (`infinity`) and 98 (`negative_infinity`). -/
inductive Ext (α : Type)
  | negInf
  | fin (a : α)
  | posInf
  deriving DecidableEq, Repr

namespace Ext

/-- `item is infinity`, /repo/versions/types.py 61-67. -/
def isInfinity {α : Type} : Ext α → Bool
  | .posInf => true
  | _ => false

/-- `item is negative_infinity`, /repo/versions/types.py 102-108. -/
def isNegativeInfinity {α : Type} : Ext α → Bool
  | .negInf => true
  | _ => false

end Ext

/-! Methods of `Infinity`, /repo/versions/types.py 35-51, with `self = infinity`. -/
namespace Infinity
def eq {α : Type} (other : Ext α) : Bool := other.isInfinity
def lt {α : Type} (_other : Ext α) : Bool := false
def le {α : Type} (other : Ext α) : Bool := other.isInfinity
def gt {α : Type} (other : Ext α) : Bool := !other.isInfinity
def ge {α : Type} (_other : Ext α) : Bool := true
end Infinity

/-! Methods of `NegativeInfinity`, /repo/versions/types.py 76-92, with `self = negative_infinity`. -/
namespace NegativeInfinity
def eq {α : Type} (other : Ext α) : Bool := other.isNegativeInfinity
def lt {α : Type} (other : Ext α) : Bool := !other.isNegativeInfinity
def le {α : Type} (_other : Ext α) : Bool := true
def gt {α : Type} (_other : Ext α) : Bool := false
def ge {α : Type} (other : Ext α) : Bool := other.isNegativeInfinity
end NegativeInfinity

/-- Operators between a value and an infinity. A value on the left of an infinity answers `NotImplemented`
(`int`, and attrs classes: other class), so Python calls the reflected method of the infinity. -/
instance {α : Type} [PyCmp α] : PyCmp (Ext α) where
  eq
    | .posInf, b => Infinity.eq b
    | .negInf, b => NegativeInfinity.eq b
    | .fin a, .fin b => PyCmp.eq a b
    | .fin a, .posInf => Infinity.eq (.fin a)
    | .fin a, .negInf => NegativeInfinity.eq (.fin a)
  lt
    | .posInf, b => Infinity.lt b
    | .negInf, b => NegativeInfinity.lt b
    | .fin a, .fin b => PyCmp.lt a b
    | .fin a, .posInf => Infinity.gt (.fin a)
    | .fin a, .negInf => NegativeInfinity.gt (.fin a)
  le
    | .posInf, b => Infinity.le b
    | .negInf, b => NegativeInfinity.le b
    | .fin a, .fin b => PyCmp.le a b
    | .fin a, .posInf => Infinity.ge (.fin a)
    | .fin a, .negInf => NegativeInfinity.ge (.fin a)
  gt
    | .posInf, b => Infinity.gt b
    | .negInf, b => NegativeInfinity.gt b
    | .fin a, .fin b => PyCmp.gt a b
    | .fin a, .posInf => Infinity.lt (.fin a)
    | .fin a, .negInf => NegativeInfinity.lt (.fin a)
  ge
    | .posInf, b => Infinity.ge b
    | .negInf, b => NegativeInfinity.ge b
    | .fin a, .fin b => PyCmp.ge a b
    | .fin a, .posInf => Infinity.le (.fin a)
    | .fin a, .negInf => NegativeInfinity.le (.fin a)

/-- The comparison methods attrs generates for a class (`eq=True, order=True`): the tuple of the fields that take
part is compared. `f` is that tuple; for a single field it is the 1-tuple `[field]`. Both operands have the same
class here. -/
@[reducible] def attrsCmp {α β : Type} [PyCmp β] (f : α → β) : PyCmp α where
  eq a b := PyCmp.eq (f a) (f b)
  lt a b := PyCmp.lt (f a) (f b)
  le a b := PyCmp.le (f a) (f b)
  gt a b := PyCmp.gt (f a) (f b)
  ge a b := PyCmp.ge (f a) (f b)

/-- The position in a sequence of length `n` meant by the Python index `i`, if in bounds. -/
def pyIndex (n : Nat) (i : Int) : Option Nat :=
  if 0 ≤ i then (if i < n then some i.toNat else none)
  else if 0 ≤ n + i then some (n + i).toNat else none

/-- `l[i]`. -/
def pyGet {α : Type} (l : List α) (i : Int) : Except PyErr α :=
  match pyIndex l.length i with
  | none => .error .indexError
  | some k => match l[k]? with
    | none => .error .indexError
    | some x => .ok x

/-- `l[i] = x` on a list. -/
def pySet {α : Type} (l : List α) (i : Int) (x : α) : Except PyErr (List α) :=
  match pyIndex l.length i with
  | none => .error .indexError
  | some k => .ok (l.set k x)

/-- `l[:i]`. -/
def pySliceTo {α : Type} (l : List α) (i : Int) : List α :=
  if 0 ≤ i then l.take i.toNat else l.take (l.length + i).toNat

/-- `funcs.primitives.increment`. -/
def increment (x : Int) : Int := x + 1

/-- /repo/versions/utils.py 53-62. -/
def countLeadingZeros : List Int → Nat
  | [] => 0
  | x :: xs => if x ≠ 0 then 0 else countLeadingZeros xs + 1

/-- /repo/versions/utils.py 45-46: the items followed by endless padding, cut to `length`. -/
def fixToLength (length : Nat) (padding : Int) (l : List Int) : List Int :=
  (l ++ List.replicate length padding).take length

end Verif
