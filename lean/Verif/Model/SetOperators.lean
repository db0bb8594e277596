import Verif.Model.VersionSets
/-!
# The operators of version sets: /repo/versions/version_sets.py 164-272

`VersionEmpty` (341) and `VersionRange` with its subclass `VersionPoint` (390, 926) inherit `VersionSetProtocol`, which
defines `__contains__`, `__and__`, `__or__`, `__sub__`, `__xor__` and their in-place forms. `VersionUnion` (1023) does
not, and defines none of them itself; no class of sets defines the reflected forms (`__rand__` ...), `__invert__`,
`__iter__` or `__getitem__`. So Python raises TypeError where nothing applies.
-/

namespace Verif

/-- The binary operators `&`, `|`, `-`, `^`. -/
inductive SetOp
  | and
  | or
  | sub
  | xor
  deriving DecidableEq, Repr

namespace VSet

/-- `a & b`, `a | b`, `a - b`, `a ^ b`: /repo/versions/version_sets.py 172-181, 195-204, 217-226, 240-250. -/
def binary (lim : Nat) (op : SetOp) (a b : VSet) : Except PyErr VSet :=
  match a with
  | union _ => .error .typeError
  | _ => match op with
    | .and => a.intersection lim b
    | .or => a.unionWith lim b
    | .sub => a.difference lim b
    | .xor => a.symmetricDifference lim b

/-- `a &= b` and so on, the value then bound to `a`: /repo/versions/version_sets.py 183-193, 206-215, 228-238, 252-262.
Python falls back on the binary form where there is no in-place form. -/
def inPlace (lim : Nat) (op : SetOp) (a b : VSet) : Except PyErr VSet :=
  match a with
  | union _ => binary lim op a b
  | _ => match op with
    | .and => a.intersection lim b
    | .or => a.unionWith lim b
    | .sub => a.difference lim b
    | .xor => a.symmetricDifference lim b

/-- `~a`: `__negate__` (264-272) is not a method Python calls; `__invert__` is defined nowhere. -/
def invert (_ : VSet) : Except PyErr VSet := .error .typeError

/-- `v in a`: /repo/versions/version_sets.py 164-170. -/
def isIn (v : Version) (a : VSet) : Except PyErr Bool :=
  match a with
  | union _ => .error .typeError
  | _ => .ok (a.contains v)

/-- `accepts = contains`: /repo/versions/version_sets.py 628, 961, 1109; `VersionEmpty` inherits `accepts` from the
protocol (105-115), which is `contains` too. -/
def accepts (a : VSet) (v : Version) : Bool := a.contains v

/-- The expression `a op b₁ op b₂ ...`, which Python evaluates from the left. -/
def chain (lim : Nat) (a : VSet) : List (SetOp × VSet) → Except PyErr VSet
  | [] => .ok a
  | (op, b) :: rest => do
    let s ← a.binary lim op b
    chain lim s rest

end VSet

end Verif
