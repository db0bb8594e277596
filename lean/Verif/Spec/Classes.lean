import Verif.Model.SubclassCaches
/-!
# The classes of the versions in specifiers and sets
-/

namespace Verif

mutual
/-- The classes of the versions in a specifier, in order. -/
def TSpecifier.classes : TSpecifier → List Nat
  | .never => []
  | .always => []
  | .one _ v => [v.cls]
  | .any l => TSpecifier.classesList l
  | .all l => TSpecifier.classesList l
def TSpecifier.classesList : List TSpecifier → List Nat
  | [] => []
  | s :: l => s.classes ++ TSpecifier.classesList l
end

/-- The classes of the ends of an item. -/
def TItem.classes (i : TItem) : List Nat := (i.fields.min.toList ++ i.fields.max.toList).map (·.cls)

/-- The classes of the versions in a set, in order. -/
def TSet.classes (s : TSet) : List Nat := s.extract.flatMap TItem.classes

end Verif
