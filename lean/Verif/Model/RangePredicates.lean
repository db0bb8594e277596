import Verif.Model.VersionSets
/-!
# Predicates of ranges
-/

namespace Verif
namespace Item

/-- /repo/versions/version_sets.py 438-439. -/
def isLeftClosed (i : Item) : Bool := i.includeMin
/-- /repo/versions/version_sets.py 441-442. -/
def isRightClosed (i : Item) : Bool := i.includeMax
/-- /repo/versions/version_sets.py 447-448. -/
def isLeftOpen (i : Item) : Bool := i.excludeMin
/-- /repo/versions/version_sets.py 450-451. -/
def isRightOpen (i : Item) : Bool := i.excludeMax
/-- /repo/versions/version_sets.py 444-445. -/
def isOpen (i : Item) : Bool := i.isLeftOpen && i.isRightOpen
/-- /repo/versions/version_sets.py 456-457. -/
def isLeftUnbounded (i : Item) : Bool := i.min.isNone
/-- /repo/versions/version_sets.py 459-460. -/
def isRightUnbounded (i : Item) : Bool := i.max.isNone
/-- /repo/versions/version_sets.py 465-466. -/
def isLeftBounded (i : Item) : Bool := i.min.isSome
/-- /repo/versions/version_sets.py 468-469. -/
def isRightBounded (i : Item) : Bool := i.max.isSome
/-- /repo/versions/version_sets.py 462-463. -/
def isBounded (i : Item) : Bool := i.isLeftBounded && i.isRightBounded

end Item
end Verif
