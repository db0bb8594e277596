import Verif.Model.VersionSets
/-!
# `ItemsDifference` as an object: /repo/versions/version_sets.py 1197-1326

`VSet.Diff` holds what `step` works on; here are the flag `prepared` and the calls that outsiders may make, in any order.
Each call gives the object afterwards and what it returns or raises.
-/

namespace Verif

/-- /repo/versions/version_sets.py 1203-1213. -/
structure ItemsDifference where
  state : VSet.Diff
  prepared : Bool

namespace ItemsDifference

/-- The constructor. -/
def create (items otherItems : List Item) : ItemsDifference := ⟨⟨items, otherItems, none, none, []⟩, false⟩

/-- `is_prepared`, `is_not_prepared`, /repo/versions/version_sets.py 1215-1219. -/
def isPrepared (o : ItemsDifference) : Bool := o.prepared
def isNotPrepared (o : ItemsDifference) : Bool := !o.prepared

/-- /repo/versions/version_sets.py 1221-1223. -/
def checkPrepared (o : ItemsDifference) : Except PyErr Unit := if o.isNotPrepared then .error .valueError else .ok ()
/-- /repo/versions/version_sets.py 1225-1227. -/
def checkNotPrepared (o : ItemsDifference) : Except PyErr Unit := if o.isPrepared then .error .valueError else .ok ()

/-- /repo/versions/version_sets.py 1263-1269. -/
def prepare (o : ItemsDifference) : ItemsDifference × Except PyErr Unit :=
  match o.checkNotPrepared with
  | .error e => (o, .error e)
  | .ok () =>
    let d := o.state
    (⟨{ d with current := d.items.head?, items := d.items.tail, otherCurrent := d.otherItems.head?,
               otherItems := d.otherItems.tail }, true⟩, .ok ())

/-- /repo/versions/version_sets.py 1271-1310. Whatever raises in there raises before anything is assigned. -/
def step (lim : Nat) (o : ItemsDifference) : ItemsDifference × Except PyErr Bool :=
  match o.checkPrepared with
  | .error e => (o, .error e)
  | .ok () => match o.state.step lim with
    | .ok (d, more) => (⟨d, o.prepared⟩, .ok more)
    | .error e => (o, .error e)

/-- The number of items not yet fetched. -/
def remaining (o : ItemsDifference) : Nat := o.state.items.length + o.state.otherItems.length

/-- At most `n` rounds of `while self.step(): pass`. -/
def rounds (lim : Nat) : Nat → ItemsDifference → ItemsDifference × Except PyErr Unit
  | 0, o => (o, .ok ())
  | n + 1, o => match o.step lim with
    | (o', .ok true) => rounds lim n o'
    | (o', .ok false) => (o', .ok ())
    | (o', .error e) => (o', .error e)

/-- /repo/versions/version_sets.py 1312-1319. The number of rounds suffices: see `C87_loop`. -/
def loop (lim : Nat) (o : ItemsDifference) : ItemsDifference × Except PyErr Unit := rounds lim (o.remaining + 1) o

/-- /repo/versions/version_sets.py 1321-1326. -/
def compute (lim : Nat) (o : ItemsDifference) : ItemsDifference × Except PyErr (List Item) :=
  match o.prepare with
  | (o, .error e) => (o, .error e)
  | (o, .ok ()) => match o.loop lim with
    | (o, .error e) => (o, .error e)
    | (o, .ok ()) => (o, .ok o.state.result.reverse)

/-- The calls, and what they return. -/
inductive Call
  | prepare
  | step
  | loop
  | compute
  deriving DecidableEq
inductive Reply
  | none
  | bool (b : Bool)
  | items (l : List Item)
  deriving DecidableEq

/-- One call. -/
def call (lim : Nat) (o : ItemsDifference) : Call → ItemsDifference × Except PyErr Reply
  | .prepare => (o.prepare.1, o.prepare.2.map fun _ => .none)
  | .step => ((o.step lim).1, (o.step lim).2.map .bool)
  | .loop => ((o.loop lim).1, (o.loop lim).2.map fun _ => .none)
  | .compute => ((o.compute lim).1, (o.compute lim).2.map .items)

/-- A sequence of calls, continued after exceptions. -/
def calls (lim : Nat) : ItemsDifference → List Call → ItemsDifference
  | o, [] => o
  | o, c :: cs => calls lim (o.call lim c).1 cs

end ItemsDifference

end Verif
