import Verif.Model.Specifiers
/-!
# Hashes

attrs gives a frozen class with `eq=True` a `__hash__` over a constant of the class and the fields that take part in
hashing: those with `eq=True` and no `hash=False`. Hashes of strings are randomised per process, so the hash functions of
the built-in types are parameters. (`hash(int)` and the hash of tuples are fixed functions, but nothing here depends on
which ones.)
-/

namespace Verif

/-- Classes with a hash generated by attrs. -/
inductive HashClass
  | epoch | release | preTag | postTag | devTag | local_ | version
  | empty | union
  | never | always | one | any | all
  deriving DecidableEq, Repr

/-- `hash` on the built-in types, and the constants of the classes. `bool` is a subclass of `int`. -/
structure Hasher where
  str : PyStr → Int
  int : Int → Int
  none : Int
  tuple : List Int → Int
  cls : HashClass → Int

namespace Hasher
variable (H : Hasher)

def bool (b : Bool) : Int := H.int (if b then 1 else 0)
def option {α : Type} (f : α → Int) : Option α → Int
  | .none => H.none
  | .some a => f a

/-- /repo/versions/segments/epoch.py 13-17: the only field is `value`. -/
def epoch (e : Epoch) : Int := H.tuple [H.cls .epoch, H.int e.value]
/-- /repo/versions/segments/release.py 28-35: `parts` has `eq=False`, `compare_parts` has `hash=False`. -/
def release (_ : Release) : Int := H.tuple [H.cls .release]
/-- /repo/versions/segments/local.py 23-32: `parts` has `eq=False`, `compare_parts` has `hash=False`. -/
def local_ (_ : Local) : Int := H.tuple [H.cls .local_]
/-- /repo/versions/segments/tags.py 40-50, 181-205: `phase` and `value`; `c` is the constant of the tag's class. -/
def tag (c : HashClass) (t : Tag) : Int := H.tuple [H.cls c, H.str t.phase, H.int t.value]
/-- /repo/versions/version.py 39-61: all fields have `eq=False`, except `compare_key` which has `hash=False`. -/
def version (_ : Version) : Int := H.tuple [H.cls .version]

/-- `hash(self.parameters)`, /repo/versions/version_sets.py 531-532; `parameters` is 411-413. Points inherit it. -/
def item (i : Item) : Int :=
  H.tuple [H.option H.version i.min, H.option H.version i.max, H.bool i.includeMin, H.bool i.includeMax]

/-- /repo/versions/version_sets.py 340 (`VersionEmpty`), 1022-1026 (`VersionUnion`). -/
def vset : VSet → Int
  | .empty => H.tuple [H.cls .empty]
  | .item i => H.item i
  | .union items => H.tuple [H.cls .union, H.tuple (items.map H.item)]

/-- The names of the members of `OperatorType`, /repo/versions/operators.py 664-695. -/
def opName : OpType → String
  | .tildeEqual => "TILDE_EQUAL"
  | .doubleEqual => "DOUBLE_EQUAL"
  | .notEqual => "NOT_EQUAL"
  | .less => "LESS"
  | .lessOrEqual => "LESS_OR_EQUAL"
  | .greater => "GREATER"
  | .greaterOrEqual => "GREATER_OR_EQUAL"
  | .caret => "CARET"
  | .equal => "EQUAL"
  | .tilde => "TILDE"
  | .wildcardDoubleEqual => "WILDCARD_DOUBLE_EQUAL"
  | .wildcardEqual => "WILDCARD_EQUAL"
  | .wildcardNotEqual => "WILDCARD_NOT_EQUAL"

/-- `OperatorType.__hash__`, /repo/versions/operators.py 768-769: `Enum.__hash__`, which is the hash of the name. -/
def opType (t : OpType) : Int := H.str (opName t).toList

/-- attrs hash over `type` and `version`: `Operator`, /repo/versions/operators.py 805-813, and `SpecifierOne`, which inherits
them, /repo/versions/specifiers.py 79-80. -/
def operator (o : Operator) : Int := H.tuple [H.cls .one, H.opType o.type, H.version o.version]

mutual
/-- attrs hashes, /repo/versions/specifiers.py 51, 65, 79, 101-109, 147-155. -/
def specifier : Specifier → Int
  | .never => H.tuple [H.cls .never]
  | .always => H.tuple [H.cls .always]
  | .one o => H.operator o
  | .any l => H.tuple [H.cls .any, H.tuple (specifiers l)]
  | .all l => H.tuple [H.cls .all, H.tuple (specifiers l)]
def specifiers : List Specifier → List Int
  | [] => []
  | s :: l => specifier s :: specifiers l
end

end Hasher
end Verif
