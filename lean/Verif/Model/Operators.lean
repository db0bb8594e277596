import Verif.Model.VersionSets
/-!
# Operators: /repo/versions/operators.py

`lim` is the recursion limit as in `Verif.Model.VersionSets`; only the complements in `translate_not_equal` and
`translate_wildcard_not_equal` depend on it.
-/

namespace Verif

namespace Version

/-- /repo/versions/operators.py 82-105. -/
def nextCaretBreaking (v : Version) : Except PyErr Version := v.nextBreaking

/-- /repo/versions/operators.py 111-145. -/
def nextTildeEqualBreaking (v : Version) : Except PyErr Version :=
  let index := v.lastIndex
  if index ≠ 0 then v.toStable.nextAt (index - 1) else .error .valueError

/-- /repo/versions/operators.py 148-173. -/
def nextTildeBreaking (v : Version) : Except PyErr Version := if v.hasAt 1 then v.nextMinor else v.nextMajor

/-- /repo/versions/operators.py 176-232. -/
def nextWildcardBreaking (v : Version) : Except PyErr (Option Version) :=
  let index := v.lastIndex
  if v.isStable && !v.isPostRelease then
    if index = 0 then .ok none else do .ok (some (← v.nextAt (index - 1)))
  else do .ok (some (← v.nextAt index))

/-- `against <= version < next(against)`: the right operand is computed only when the first comparison holds. -/
def chained (next : Version → Except PyErr Version) (v against : Version) : Except PyErr Bool :=
  if PyCmp.le against v then do .ok (PyCmp.lt v (← next against)) else .ok false

/-! `matches_*`: /repo/versions/operators.py 250-466. -/

/-- /repo/versions/operators.py 250-266. -/
def matchesCaret (v against : Version) : Except PyErr Bool := chained nextCaretBreaking v against
/-- /repo/versions/operators.py 269-285. -/
def matchesTildeEqual (v against : Version) : Except PyErr Bool := chained nextTildeEqualBreaking v against
/-- /repo/versions/operators.py 288-304. -/
def matchesTilde (v against : Version) : Except PyErr Bool := chained nextTildeBreaking v against
/-- /repo/versions/operators.py 307-323. -/
def matchesEqual (v against : Version) : Except PyErr Bool := .ok (PyCmp.eq v against)
/-- /repo/versions/operators.py 326-342. -/
def matchesNotEqual (v against : Version) : Except PyErr Bool := .ok (!PyCmp.eq v against)
/-- /repo/versions/operators.py 345-362. -/
def matchesLess (v against : Version) : Except PyErr Bool := .ok (PyCmp.lt v against)
/-- /repo/versions/operators.py 365-381. -/
def matchesLessOrEqual (v against : Version) : Except PyErr Bool := .ok (PyCmp.le v against)
/-- /repo/versions/operators.py 384-400. -/
def matchesGreater (v against : Version) : Except PyErr Bool := .ok (PyCmp.gt v against)
/-- /repo/versions/operators.py 403-419. -/
def matchesGreaterOrEqual (v against : Version) : Except PyErr Bool := .ok (PyCmp.ge v against)
/-- /repo/versions/operators.py 422-445. -/
def matchesWildcardEqual (v against : Version) : Except PyErr Bool := do
  match ← nextWildcardBreaking against with
  | none => .ok true
  | some wildcard => .ok (PyCmp.le against v && PyCmp.lt v wildcard)
/-- /repo/versions/operators.py 448-466. -/
def matchesWildcardNotEqual (v against : Version) : Except PyErr Bool := do
  .ok (!(← matchesWildcardEqual v against))

/-! `translate_*`: /repo/versions/operators.py 469-661. -/

/-- /repo/versions/operators.py 469-485. -/
def translateCaret (v : Version) : Except PyErr VSet := do
  .ok (.item (← Item.mkRange (some v) (some (← v.nextCaretBreaking)) true false))
/-- /repo/versions/operators.py 488-504. -/
def translateTildeEqual (v : Version) : Except PyErr VSet := do
  .ok (.item (← Item.mkRange (some v) (some (← v.nextTildeEqualBreaking)) true false))
/-- /repo/versions/operators.py 507-523. -/
def translateTilde (v : Version) : Except PyErr VSet := do
  .ok (.item (← Item.mkRange (some v) (some (← v.nextTildeBreaking)) true false))
/-- /repo/versions/operators.py 526-537. -/
def translateEqual (v : Version) : VSet := .item (.point v)
/-- /repo/versions/operators.py 543-559. -/
def translateNotEqual (lim : Nat) (v : Version) : Except PyErr VSet := do
  match ← (translateEqual v).complement lim with
  | .union items => .ok (.union items)
  | _ => .error .internalError
/-- /repo/versions/operators.py 562-573. -/
def translateLess (v : Version) : Except PyErr VSet := do .ok (.item (← Item.mkRange none (some v) false false))
/-- /repo/versions/operators.py 576-587. -/
def translateLessOrEqual (v : Version) : Except PyErr VSet := do .ok (.item (← Item.mkRange none (some v) false true))
/-- /repo/versions/operators.py 590-601. -/
def translateGreater (v : Version) : Except PyErr VSet := do .ok (.item (← Item.mkRange (some v) none false false))
/-- /repo/versions/operators.py 604-616. -/
def translateGreaterOrEqual (v : Version) : Except PyErr VSet := do .ok (.item (← Item.mkRange (some v) none true false))
/-- /repo/versions/operators.py 619-637. -/
def translateWildcardEqual (v : Version) : Except PyErr VSet := do
  match ← v.nextWildcardBreaking with
  | none => do .ok (.item (← Item.mkRange none none false false))
  | some wildcard => do .ok (.item (← Item.mkRange (some v) (some wildcard) true false))
/-- /repo/versions/operators.py 643-661. -/
def translateWildcardNotEqual (lim : Nat) (v : Version) : Except PyErr VSet := do
  match ← (← translateWildcardEqual v).complement lim with
  | .empty => .ok .empty
  | .union items => .ok (.union items)
  | .item _ => .error .internalError

end Version

/-- /repo/versions/operators.py 664-683. -/
inductive OpType
  | tildeEqual
  | doubleEqual
  | notEqual
  | less
  | lessOrEqual
  | greater
  | greaterOrEqual
  | caret
  | equal
  | tilde
  | wildcardDoubleEqual
  | wildcardEqual
  | wildcardNotEqual
  deriving DecidableEq, Repr

namespace OpType

/-- `self in WILDCARD`, /repo/versions/operators.py 736-742, 782-786. (`in` compares with `==` after the hash; the sets
hold both members of each pair of equal ones, so this is membership.) -/
def isWildcard (t : OpType) : Bool := t ∈ [wildcardDoubleEqual, wildcardEqual, wildcardNotEqual]
/-- `self in EQUALS`, /repo/versions/operators.py 744-745, 776. -/
def inEquals (t : OpType) : Bool := t ∈ [doubleEqual, equal]
/-- `self in WILDCARD_EQUALS`, /repo/versions/operators.py 747-748, 778. -/
def inWildcardEquals (t : OpType) : Bool := t ∈ [wildcardDoubleEqual, wildcardEqual]
/-- `self in UNARY`, /repo/versions/operators.py 750-756, 780. -/
def isUnary (t : OpType) : Bool := t ∈ [caret, tilde]

/-- `__eq__`, /repo/versions/operators.py 758-766; `Enum.__eq__` is identity. -/
def eq (a b : OpType) : Bool :=
  (a.inEquals && b.inEquals) || (a.inWildcardEquals && b.inWildcardEquals) || decide (a = b)

/-- First component of the `OPERATOR` table, /repo/versions/operators.py 788-802. -/
def matches_ : OpType → Version → Version → Except PyErr Bool
  | tildeEqual => Version.matchesTildeEqual
  | doubleEqual => Version.matchesEqual
  | notEqual => Version.matchesNotEqual
  | less => Version.matchesLess
  | lessOrEqual => Version.matchesLessOrEqual
  | greater => Version.matchesGreater
  | greaterOrEqual => Version.matchesGreaterOrEqual
  | caret => Version.matchesCaret
  | equal => Version.matchesEqual
  | tilde => Version.matchesTilde
  | wildcardDoubleEqual => Version.matchesWildcardEqual
  | wildcardEqual => Version.matchesWildcardEqual
  | wildcardNotEqual => Version.matchesWildcardNotEqual

/-- Second component of the `OPERATOR` table, /repo/versions/operators.py 788-802. -/
def translate (lim : Nat) : OpType → Version → Except PyErr VSet
  | tildeEqual => Version.translateTildeEqual
  | doubleEqual => fun v => .ok (Version.translateEqual v)
  | notEqual => Version.translateNotEqual lim
  | less => Version.translateLess
  | lessOrEqual => Version.translateLessOrEqual
  | greater => Version.translateGreater
  | greaterOrEqual => Version.translateGreaterOrEqual
  | caret => Version.translateCaret
  | equal => fun v => .ok (Version.translateEqual v)
  | tilde => Version.translateTilde
  | wildcardDoubleEqual => Version.translateWildcardEqual
  | wildcardEqual => Version.translateWildcardEqual
  | wildcardNotEqual => Version.translateWildcardNotEqual lim

end OpType

/-- /repo/versions/operators.py 805-813. -/
structure Operator where
  type : OpType
  version : Version
  deriving DecidableEq, Repr

namespace Operator

/-- The constructor with `validate`, /repo/versions/operators.py 815-822; the thirteen class methods (877-927) call it
with the type fixed. -/
def create (type : OpType) (version : Version) : Except PyErr Operator :=
  if type = .tildeEqual ∧ version.lastIndex = 0 then .error .valueError else .ok ⟨type, version⟩

/-- `partial_matches`, /repo/versions/operators.py 243-247, 947-952. -/
def accepts (o : Operator) (v : Version) : Except PyErr Bool := o.type.matches_ v o.version

/-- `operator.translate(operator.version)`, /repo/versions/operators.py 929-945. -/
def toSet (lim : Nat) (o : Operator) : Except PyErr VSet := o.type.translate lim o.version

/-- `__eq__` of attrs on `(type, version)`. -/
def eq (a b : Operator) : Bool := a.type.eq b.type && PyCmp.eq a.version b.version

end Operator

end Verif
