import Verif.Model.Subclasses
import Verif.Model.Parsers
/-!
# Sets of versions of more than one class

The operations of /repo/versions/version_sets.py, /repo/versions/operators.py (`translate_*`) and /repo/versions/converters.py
on versions that carry their class (`Model/Subclasses`). The functions are those of `Model/VersionSets`, `Model/Operators` and
`Model/Specifiers`, except that every comparison of versions may raise.

`list.sort` (/repo/versions/version_sets.py 1058) calls `<` on some pairs of items, and some of these calls may raise. Nothing is
assumed about which pairs an implementation compares, beyond the following.
-/

namespace Verif

/-- `list.sort` on items. -/
structure ItemSort where
  sort : List TItem → Except PyErr (List TItem)
  /-- What it returns is the list in an order in which neighbours have been compared. -/
  returns : ∀ l l', sort l = .ok l' → l'.Perm l ∧
    l'.IsChain (fun a b => (∃ o, b.compare a = .ok o ∧ o ≠ .lt) ∨ a.compare b = .ok .lt)
  /-- It raises only what comparisons raise. -/
  raises : ∀ l e, sort l = .error e → ∃ a ∈ l, ∃ b ∈ l, a.compare b = .error e
  /-- If all comparisons return and order the items, it is the stable sort. -/
  stable : ∀ (l : List TItem) (le : TItem → TItem → Bool),
    (∀ a ∈ l, ∀ b ∈ l, ∃ o, b.compare a = .ok o ∧ (le a b = true ↔ o ≠ .lt)) →
    (∀ a ∈ l, ∀ b ∈ l, le a b = true ∨ le b a = true) →
    (∀ a ∈ l, ∀ b ∈ l, ∀ x ∈ l, le a b = true → le b x = true → le a x = true) →
    sort l = .ok (l.insertionSort (fun a b => le a b = true))

namespace TSet

/-- /repo/versions/version_sets.py 1040-1046. -/
def extract : TSet → List TItem
  | empty => []
  | item i => [i]
  | union items => items

/-- /repo/versions/version_sets.py 344, 585, 948, 1100. -/
def isEmpty : TSet → Bool
  | empty => true
  | item i => i.isEmpty
  | union _ => false

/-- `UNIVERSAL_SET`, /repo/versions/version_sets.py 923. -/
def universal : TSet := .item (.range {})

/-- The constructor of `VersionUnion`, /repo/versions/version_sets.py 1009-1014, 1026-1038. -/
def mkUnion (items : List TItem) : Except PyErr TSet :=
  if items.isEmpty then .error .valueError
  else if items.length == 1 then .error .valueError
  else .ok (.union items)

/-- The loop of `merge`, /repo/versions/version_sets.py 1060-1079; `merged` in reverse. -/
def mergeLoop (union : TItem → TItem → Except PyErr TSet) : List TItem → List TItem → Except PyErr (List TItem)
  | merged, [] => .ok merged
  | [], it :: rest => mergeLoop union [it] rest
  | lastItem :: merged, it :: rest => do
    if ← (do if ← lastItem.intersects it then .ok true else .ok (lastItem.isAdjacent it)) then
      match ← union lastItem it with
      | .item result => mergeLoop union (result :: merged) rest
      | _ => .error .internalError
    else mergeLoop union (it :: lastItem :: merged) rest

/-- `merge`, /repo/versions/version_sets.py 1048-1092, on the extracted items. -/
def merge (S : ItemSort) (lim : Nat) (extracted : List TItem) : Except PyErr TSet :=
  if extracted.isEmpty then .ok .empty
  else if extracted.any TItem.isUniversal then .ok universal
  else do
    let merged ← mergeLoop (TItem.union lim) [] (← S.sort extracted)
    match merged with
    | [i] => .ok (.item i)
    | merged => mkUnion merged.reverse

/-- `all(self.includes(item) for item in version_set.items)`. -/
def allIncludes (self : TItem) : List TItem → Except PyErr Bool
  | [] => .ok true
  | i :: rest => do if ← self.includes i then allIncludes self rest else .ok false

/-- `any(self.intersects(item) for item in version_set.items)`. -/
def anyIntersects (self : TItem) : List TItem → Except PyErr Bool
  | [] => .ok false
  | i :: rest => do if ← self.intersects i then .ok true else anyIntersects self rest

/-- The loop of `VersionUnion.includes`, /repo/versions/version_sets.py 1115-1125. -/
def includesLoop : List TItem → List TItem → Except PyErr Bool
  | _, [] => .ok true
  | [], _ :: _ => .ok false
  | selfItem :: selfItems, it :: items => do
    if ← selfItem.includes it then includesLoop (selfItem :: selfItems) items
    else includesLoop selfItems (it :: items)
  termination_by a b => a.length + b.length

/-- `includes`: /repo/versions/version_sets.py 350-351, 630-643, 963-966, 1111-1125. -/
def includes : TSet → TSet → Except PyErr Bool
  | empty, other => .ok other.isEmpty
  | item (.range _), empty => .ok true
  | item (.range r), item j => (TItem.range r).includes j
  | item (.range r), union items => allIncludes (.range r) items
  | item (.point _), empty => .ok true
  | item (.point v), item j => (TItem.point v).includes j
  | item (.point _), union _ => .ok false
  | union items, other => includesLoop items other.extract

/-- The loop of `VersionUnion.intersects`, /repo/versions/version_sets.py 1131-1144. -/
def intersectsLoop : List TItem → List TItem → Except PyErr Bool
  | [], _ => .ok false
  | _ :: _, [] => .ok false
  | selfItem :: selfItems, it :: items => do
    if ← selfItem.intersects it then .ok true
    else if ← it.isHigher selfItem then intersectsLoop selfItems (it :: items)
    else intersectsLoop (selfItem :: selfItems) items
  termination_by a b => a.length + b.length

/-- `intersects`: /repo/versions/version_sets.py 353-354, 645-658, 968-969, 1127-1144. -/
def intersects : TSet → TSet → Except PyErr Bool
  | empty, _ => .ok false
  | item (.range _), empty => .ok false
  | item (.range r), item j => (TItem.range r).intersects j
  | item (.range r), union items => anyIntersects (.range r) items
  | item (.point v), other => other.contains v
  | union items, other => intersectsLoop items other.extract

/-- `intersection_iterator`, /repo/versions/version_sets.py 1146-1163. -/
def intersectionLoop : List TItem → List TItem → Except PyErr (List TItem)
  | [], _ => .ok []
  | _ :: _, [] => .ok []
  | selfItem :: selfItems, it :: items => do
    let intersection ← selfItem.intersection it
    let rest ← if ← it.isHigher selfItem then intersectionLoop selfItems (it :: items)
      else intersectionLoop (selfItem :: selfItems) items
    match intersection with
    | .item i => .ok (i :: rest)
    | _ => .ok rest
  termination_by a b => a.length + b.length

/-- `intersection`: /repo/versions/version_sets.py 359-360, 663-709, 971-972, 1165-1166. -/
def intersection (S : ItemSort) (lim : Nat) : TSet → TSet → Except PyErr TSet
  | empty, _ => .ok .empty
  | item (.range _), empty => .ok .empty
  | item (.range r), item j => (TItem.range r).intersection j
  | item (.range r), union items => do merge S lim (← intersectionLoop items [.range r])
  | item (.point v), other => do if ← other.contains v then .ok (.item (.point v)) else .ok .empty
  | union items, other => do merge S lim (← intersectionLoop items other.extract)

/-- `union`: /repo/versions/version_sets.py 362-363, 711-759, 974-990, 1168-1169. -/
def unionWith (S : ItemSort) (lim : Nat) : TSet → TSet → Except PyErr TSet
  | empty, other => .ok other
  | item i, empty => .ok (.item i)
  | item i, item j => i.union lim j
  | item (.range r), union items => merge S lim (items ++ [.range r])
  | item (.point v), union items => do
    if ← anyContains items v then .ok (.union items) else merge S lim (.point v :: items)
  | union items, other => merge S lim (items ++ other.extract)

end TSet

namespace TItem

/-- `VersionPoint(v)` on an `Optional[Version]`, /repo/versions/version_sets.py 798, 809. -/
def pointOf : Option TVersion → Except PyErr TItem
  | some v => .ok (point v)
  | none => .error .typeError

/-- The variable `before` of `difference`, /repo/versions/version_sets.py 792-801. -/
def differenceBefore (self other : TItem) : Except PyErr (Option TItem) := do
  if !(← self.isLower other) then .ok none
  else if TVersion.optEq self.fields.min other.fields.min then do .ok (some (← pointOf self.fields.min))
  else do .ok (some (← mkRange self.fields.min other.fields.min self.fields.includeMin (!other.fields.includeMin)))

/-- The variable `after` of `difference`, /repo/versions/version_sets.py 803-812. -/
def differenceAfter (self other : TItem) : Except PyErr (Option TItem) := do
  if !(← self.isHigher other) then .ok none
  else if TVersion.optEq self.fields.max other.fields.max then do .ok (some (← pointOf self.fields.max))
  else do .ok (some (← mkRange other.fields.max self.fields.max (!other.fields.includeMax) self.fields.includeMax))

/-- `difference` with an item as argument: /repo/versions/version_sets.py 765-826, 992-993. -/
def difference (lim : Nat) : TItem → TItem → Except PyErr TSet
  | range r, point v => do
    if !(← (range r).contains v) then .ok (.item (range r))
    else if TVersion.optEq (some v) r.min then
      if !r.includeMin then .ok (.item (range r)) else do .ok (.item (← mkRange r.min r.max false r.includeMax))
    else if TVersion.optEq (some v) r.max then
      if !r.includeMax then .ok (.item (range r)) else do .ok (.item (← mkRange r.min r.max r.includeMin false))
    else do
      let left ← mkRange r.min (some v) r.includeMin false
      let right ← mkRange (some v) r.max false r.includeMax
      unionOf (union lim) left right
  | range r, range s => do
    if !(← (range r).intersects (range s)) then .ok (.item (range r))
    else do
      let before ← (range r).differenceBefore (range s)
      let after ← (range r).differenceAfter (range s)
      match before, after with
      | none, none => .ok .empty
      | none, some after => .ok (.item after)
      | some before, none => .ok (.item before)
      | some before, some after => unionOf (union lim) before after
  | point v, other => do if ← other.contains v then .ok .empty else .ok (.item (point v))

/-- `difference_iterator`, /repo/versions/version_sets.py 833-853. -/
def differenceIterator (lim : Nat) : TItem → List TItem → Except PyErr (List TItem)
  | current, [] => .ok [current]
  | current, item :: rest => do
    if ← item.isStrictlyLower current then differenceIterator lim current rest
    else if ← item.isStrictlyHigher current then .ok [current]
    else do
      match ← current.difference lim item with
      | .union items => match items with
        | [left, right] => do .ok (left :: (← differenceIterator lim right rest))
        | _ => .error .valueError
      | .item difference => differenceIterator lim difference rest
      | .empty => differenceIterator lim current rest

end TItem

namespace TSet

/-- `ItemsDifference`, /repo/versions/version_sets.py 1203-1213; `result` in reverse. -/
structure Diff where
  items : List TItem
  otherItems : List TItem
  current : Option TItem
  otherCurrent : Option TItem
  result : List TItem

namespace Diff

/-- /repo/versions/version_sets.py 1229-1246. -/
def nextOtherCurrent (d : Diff) : Diff × Bool :=
  match d.otherItems with
  | other :: rest => ({ d with otherCurrent := some other, otherItems := rest }, true)
  | [] =>
    let result := match d.current with
      | some current => current :: d.result
      | none => d.result
    ({ d with otherCurrent := none, items := [], result := d.items.reverse ++ result }, false)

/-- /repo/versions/version_sets.py 1248-1261. -/
def nextCurrent (d : Diff) (includeCurrent : Bool := true) : Diff × Bool :=
  let result := match includeCurrent, d.current with
    | true, some current => current :: d.result
    | _, _ => d.result
  match d.items with
  | [] => ({ d with result := result }, false)
  | it :: rest => ({ d with result := result, current := some it, items := rest }, true)

/-- /repo/versions/version_sets.py 1271-1310. -/
def step (lim : Nat) (d : Diff) : Except PyErr (Diff × Bool) :=
  match d.current, d.otherCurrent with
  | some current, some otherCurrent => do
    if ← otherCurrent.isStrictlyLower current then .ok d.nextOtherCurrent
    else if ← otherCurrent.isStrictlyHigher current then .ok d.nextCurrent
    else do
      match ← current.difference lim otherCurrent with
      | .union items => match items with
        | [left, right] =>
          .ok { d with result := left :: d.result, current := some right }.nextOtherCurrent
        | _ => .error .valueError
      | .empty => .ok (d.nextCurrent false)
      | .item difference => do
        let d := { d with current := some difference }
        if ← difference.isHigher otherCurrent then .ok d.nextOtherCurrent else .ok d.nextCurrent
  | _, _ => .ok (d, false)

/-- /repo/versions/version_sets.py 1312-1319; as many rounds as in `VSet.Diff.loop`. -/
def loop (lim : Nat) : Nat → Diff → Except PyErr Diff
  | 0, _ => .error .recursionError
  | fuel + 1, d => do
    match ← d.step lim with
    | (d, true) => loop lim fuel d
    | (d, false) => .ok d

/-- `compute` with `prepare`, /repo/versions/version_sets.py 1263-1269, 1321-1326. -/
def compute (lim : Nat) (items otherItems : List TItem) : Except PyErr (List TItem) := do
  let d ← loop lim (items.length + otherItems.length + 1)
    ⟨items.tail, otherItems.tail, items.head?, otherItems.head?, []⟩
  .ok d.result.reverse

end Diff

/-- `difference`: /repo/versions/version_sets.py 365-366, 761-831, 992-993, 1171-1173. -/
def difference (S : ItemSort) (lim : Nat) : TSet → TSet → Except PyErr TSet
  | empty, _ => .ok .empty
  | item (.range r), empty => .ok (item (.range r))
  | item (.range r), item j => (TItem.range r).difference lim j
  | item (.range r), union items => do merge S lim (← (TItem.range r).differenceIterator lim items)
  | item (.point v), other => do if ← other.contains v then .ok .empty else .ok (.item (.point v))
  | union items, other => do merge S lim (← Diff.compute lim items other.extract)

/-- `complement`: /repo/versions/version_sets.py 371-372, 855-856, 995-996, 1175-1176. -/
def complement (S : ItemSort) (lim : Nat) : TSet → Except PyErr TSet
  | empty => .ok universal
  | other => universal.difference S lim other

/-- `symmetric_difference`: /repo/versions/version_sets.py 153-162, 368-369. -/
def symmetricDifference (S : ItemSort) (lim : Nat) : TSet → TSet → Except PyErr TSet
  | empty, other => .ok other
  | item i, other => do
    let u ← (item i).unionWith S lim other
    let n ← (item i).intersection S lim other
    u.difference S lim n
  | union _, _ => .error .attributeError

/-- `VersionUnion.exclude_version`, /repo/versions/version_sets.py 1094-1098. -/
def excludeVersion (S : ItemSort) (lim : Nat) (items : List TItem) : Except PyErr (Option TVersion) := do
  match ← (union items).complement S lim with
  | .item (.point v) => .ok (some v)
  | _ => .ok none

end TSet

namespace TVersion

/-- `VersionRange(min=v, max=next(v), include_min=True)`; `next` keeps the class. /repo/versions/operators.py 469-523. -/
def window (next : Version → Except PyErr Version) (v : TVersion) : Except PyErr TSet := do
  .ok (.item (← TItem.mkRange (some v) (some ⟨v.cls, ← next v.version⟩) true false))

/-- /repo/versions/operators.py 619-637. -/
def translateWildcardEqual (v : TVersion) : Except PyErr TSet := do
  match ← v.version.nextWildcardBreaking with
  | none => do .ok (.item (← TItem.mkRange none none false false))
  | some wildcard => do .ok (.item (← TItem.mkRange (some v) (some ⟨v.cls, wildcard⟩) true false))

end TVersion

/-- `translate_*`, /repo/versions/operators.py 469-661, by the second component of the table 788-802. -/
def OpType.translateT (S : ItemSort) (lim : Nat) : OpType → TVersion → Except PyErr TSet
  | tildeEqual, v => v.window Version.nextTildeEqualBreaking
  | doubleEqual, v => .ok (.item (.point v))
  | notEqual, v => do
    match ← (TSet.item (.point v)).complement S lim with
    | .union items => .ok (.union items)
    | _ => .error .internalError
  | less, v => do .ok (.item (← TItem.mkRange none (some v) false false))
  | lessOrEqual, v => do .ok (.item (← TItem.mkRange none (some v) false true))
  | greater, v => do .ok (.item (← TItem.mkRange (some v) none false false))
  | greaterOrEqual, v => do .ok (.item (← TItem.mkRange (some v) none true false))
  | caret, v => v.window Version.nextCaretBreaking
  | equal, v => .ok (.item (.point v))
  | tilde, v => v.window Version.nextTildeBreaking
  | wildcardDoubleEqual, v => v.translateWildcardEqual
  | wildcardEqual, v => v.translateWildcardEqual
  | wildcardNotEqual, v => do
    match ← (← v.translateWildcardEqual).complement S lim with
    | .empty => .ok .empty
    | .union items => .ok (.union items)
    | .item _ => .error .internalError

namespace TSpecifier

mutual
/-- `specifier_to_version_set`, /repo/versions/converters.py 58-84. -/
def toSet (S : ItemSort) (lim : Nat) : TSpecifier → Except PyErr TSet
  | one t v => t.translateT S lim v
  | never => .ok .empty
  | always => .ok .universal
  | all l => match l with
    | [] => .error .typeError
    | s :: rest => do reduceAll S lim (← toSet S lim s) rest
  | any l => match l with
    | [] => .error .typeError
    | s :: rest => do reduceAny S lim (← toSet S lim s) rest
/-- The rest of the `reduce` with `version_set_intersection`. -/
def reduceAll (S : ItemSort) (lim : Nat) : TSet → List TSpecifier → Except PyErr TSet
  | acc, [] => .ok acc
  | acc, s :: rest => do reduceAll S lim (← acc.intersection S lim (← toSet S lim s)) rest
/-- The rest of the `reduce` with `version_set_union`. -/
def reduceAny (S : ItemSort) (lim : Nat) : TSet → List TSpecifier → Except PyErr TSet
  | acc, [] => .ok acc
  | acc, s :: rest => do reduceAny S lim (← acc.unionWith S lim (← toSet S lim s)) rest
end

end TSpecifier

/-- `parse_version_set(string, version_type)` without its caches, /repo/versions/functions.py 52-67: the parser makes versions of
the class `c` (/repo/versions/parsers.py 98-146). -/
def TSet.parse (S : ItemSort) (lim : Nat) (c : Nat) (s : PyStr) : Except PyErr TSet := do
  ((← Specifier.parse s).ofClass c).toSet S lim

end Verif
