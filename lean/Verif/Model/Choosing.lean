import Verif.Model.Hash
import Verif.Model.Specifiers
/-!
# Lists of versions given to `max`, `min`, `sorted` and `set`

These are not functions of the package, but of CPython; what they do is determined by the methods `__gt__`, `__lt__`, `__eq__`
(/repo/versions/version.py 38-82, generated by attrs) and `__hash__` of the versions.
-/

namespace Verif.Choosing

/-- `max` of a list with a first element: the loop keeps an item until it sees one that is `>` it. -/
def pyMax (first : Version) (rest : List Version) : Version := rest.foldl (fun m v => if PyCmp.gt v m then v else m) first

/-- `min`: the loop keeps an item until it sees one that is `<` it. -/
def pyMin (first : Version) (rest : List Version) : Version := rest.foldl (fun m v => if PyCmp.lt v m then v else m) first

/-- `max((v for v in versions if s.contains(v)), default=None)`. -/
def latest (s : VSet) (versions : List Version) : Option Version :=
  match versions.filter s.contains with
  | [] => none
  | v :: l => some (pyMax v l)

/-- `[v for v in versions if s.accepts(v)]`, stopping at the first exception. -/
def acceptedOf (s : Specifier) : List Version → Except PyErr (List Version)
  | [] => .ok []
  | v :: l => do
    let b ← s.accepts v
    let rest ← acceptedOf s l
    .ok (if b then v :: rest else rest)

/-- `set(versions)`, in the order of insertion: an item is added unless one with the same hash is equal to it. -/
def pySet (H : Hasher) (versions : List Version) : List Version :=
  versions.foldl (fun acc v => if acc.any (fun w => decide (H.version w = H.version v) && PyCmp.eq w v) then acc else acc ++ [v]) []

/-- `sorted(versions)`: insertion from the right before the first item that is not smaller. Any stable algorithm gives
the same list (`C116_sorted`). -/
def pySorted (versions : List Version) : List Version := versions.insertionSort (fun a b => (!PyCmp.lt b a) = true)

end Verif.Choosing
