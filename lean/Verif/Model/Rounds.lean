import Verif.Model.Specifiers
/-!
# The rounds of the loops of the set operations

The operations of /repo/versions/version_sets.py once more, each with the number of rounds of its loops, nested ones
included: of `for` and `while` loops over items and of `any` and `all`, each of which makes a bounded number of comparisons
of versions (and of calls of operations on two items, whose rounds are counted where they have any). The rounds of
`list.sort` (1058) are not counted, nor those in which lists are copied (`tuple(...)`, `extend`, `flatten`): they are made by
the interpreter.
-/

namespace Verif

/-- A computation and the rounds it takes. -/
structure Run (α : Type) where
  result : Except PyErr α
  rounds : Nat

namespace Run
variable {α β : Type}

/-- A computation without loops. -/
def lift (x : Except PyErr α) : Run α := ⟨x, 0⟩

/-- One computation after another. -/
def andThen (x : Run α) (f : α → Run β) : Run β :=
  match x.result with
  | .error e => ⟨.error e, x.rounds⟩
  | .ok a => ⟨(f a).result, x.rounds + (f a).rounds⟩

instance : Monad Run where
  pure a := lift (.ok a)
  bind := andThen

/-- One more round. -/
def tick (x : Run α) : Run α := ⟨x.result, x.rounds + 1⟩

end Run

namespace Rounds
open Run

/-- `all(...)`: the rounds up to the first that says no. -/
def all (p : Item → Bool) : List Item → Run Bool
  | [] => pure true
  | i :: l => tick (if p i then all p l else pure false)

/-- `any(...)`: the rounds up to the first that says yes. -/
def any (p : Item → Bool) : List Item → Run Bool
  | [] => pure false
  | i :: l => tick (if p i then pure true else any p l)

/-- `contains`, /repo/versions/version_sets.py 356-357, 610-624, 957-958, 1106-1107. -/
def contains : VSet → Version → Run Bool
  | .empty, _ => pure false
  | .item i, v => pure (i.contains v)
  | .union items, v => any (fun i => i.contains v) items

/-- /repo/versions/version_sets.py 1115-1125. -/
def includesLoop : List Item → List Item → Run Bool
  | _, [] => pure true
  | [], _ :: _ => pure false
  | selfItem :: selfItems, it :: items =>
    tick (if selfItem.includesItem it then includesLoop (selfItem :: selfItems) items else includesLoop selfItems (it :: items))
  termination_by a b => a.length + b.length

/-- `includes`. -/
def includes : VSet → VSet → Run Bool
  | .empty, other => pure other.isEmpty
  | .item (.range _), .empty => pure true
  | .item (.range r), .item j => pure ((Item.range r).includesItem j)
  | .item (.range r), .union items => all (fun j => (Item.range r).includesItem j) items
  | .item (.point _), .empty => pure true
  | .item (.point v), .item j => pure ((Item.point v).includesItem j)
  | .item (.point _), .union _ => pure false
  | .union items, other => includesLoop items other.extract

/-- /repo/versions/version_sets.py 1131-1144. -/
def intersectsLoop : List Item → List Item → Run Bool
  | [], _ => pure false
  | _ :: _, [] => pure false
  | selfItem :: selfItems, it :: items =>
    tick (if selfItem.intersectsItem it then pure true
      else if it.isHigher selfItem then intersectsLoop selfItems (it :: items)
      else intersectsLoop (selfItem :: selfItems) items)
  termination_by a b => a.length + b.length

/-- `intersects`. -/
def intersects : VSet → VSet → Run Bool
  | .empty, _ => pure false
  | .item (.range _), .empty => pure false
  | .item (.range r), .item j => pure ((Item.range r).intersectsItem j)
  | .item (.range r), .union items => any (fun j => (Item.range r).intersectsItem j) items
  | .item (.point v), other => contains other v
  | .union items, other => intersectsLoop items other.extract

/-- /repo/versions/version_sets.py 1060-1079. -/
def mergeLoop (union : Item → Item → Run VSet) : List Item → List Item → Run (List Item)
  | merged, [] => pure merged
  | [], it :: rest => tick (mergeLoop union [it] rest)
  | lastItem :: merged, it :: rest =>
    tick (if lastItem.intersectsItem it || lastItem.isAdjacent it then do
        match ← union lastItem it with
        | .item result => mergeLoop union (result :: merged) rest
        | _ => lift (.error .internalError)
      else mergeLoop union (it :: lastItem :: merged) rest)

/-- The loop over the items that looks for the universal set, then `merge`: /repo/versions/version_sets.py 1048-1092. -/
def mergeItems (union : Item → Item → Run VSet) (extracted : List Item) : Run VSet :=
  if extracted.isEmpty then pure .empty
  else do
    if ← any Item.isUniversal extracted then pure .universal
    else do
      let merged ← mergeLoop union [] (VSet.sortItems extracted)
      match merged with
      | [i] => pure (.item i)
      | merged => lift (VSet.mkUnion merged.reverse)

/-- `union` of two items. -/
def unionItem : Nat → Item → Item → Run VSet
  | 0, _, _ => lift (.error .recursionError)
  | lim + 1, .range r, .point v =>
    let self := Item.range r
    if self.contains v then pure (.item self)
    else if optEq (some v) self.min then do
      pure (.item (← lift (Item.mkRange self.min self.max true self.includeMax)))
    else if optEq (some v) self.max then do
      pure (.item (← lift (Item.mkRange self.min self.max self.includeMin true)))
    else mergeItems (unionItem lim) [self, .point v]
  | lim + 1, .range r, .range s =>
    let self := Item.range r
    let other := Item.range s
    if !self.isAdjacent other && !self.intersectsItem other then mergeItems (unionItem lim) [self, other]
    else
      let (min, includeMin) := if self.isLower other then (self.min, self.includeMin) else (other.min, other.includeMin)
      let (max, includeMax) := if self.isHigher other then (self.max, self.includeMax) else (other.max, other.includeMax)
      do pure (.item (← lift (Item.mkRange min max includeMin includeMax)))
  | lim + 1, .point v, .point w =>
    if (Item.point v).contains w then pure (.item (.point v)) else mergeItems (unionItem lim) [.point v, .point w]
  | lim + 1, .point v, .range s =>
    if (Item.range s).contains v then pure (.item (.range s)) else mergeItems (unionItem lim) [.point v, .range s]

/-- `VersionUnion.of`. -/
def unionOf (lim : Nat) (sets : List VSet) : Run VSet := mergeItems (unionItem lim) (sets.flatMap VSet.extract)

/-- `union`. -/
def unionWith (lim : Nat) : VSet → VSet → Run VSet
  | .empty, other => pure other
  | .item i, .empty => pure (.item i)
  | .item i, .item j => unionItem lim i j
  | .item (.range r), .union items => unionOf lim [.union items, .item (.range r)]
  | .item (.point v), .union items => do
    if ← contains (.union items) v then pure (.union items) else unionOf lim [.item (.point v), .union items]
  | .union items, other => unionOf lim [.union items, other]

/-- /repo/versions/version_sets.py 1146-1163. -/
def intersectionLoop : List Item → List Item → Run (List Item)
  | [], _ => pure []
  | _ :: _, [] => pure []
  | selfItem :: selfItems, it :: items => tick do
    let intersection ← lift (selfItem.intersectionItem it)
    let rest ← if it.isHigher selfItem then intersectionLoop selfItems (it :: items)
      else intersectionLoop (selfItem :: selfItems) items
    match intersection with
    | .item i => pure (i :: rest)
    | _ => pure rest
  termination_by a b => a.length + b.length

/-- `intersection`. -/
def intersection (lim : Nat) : VSet → VSet → Run VSet
  | .empty, _ => pure .empty
  | .item (.range _), .empty => pure .empty
  | .item (.range r), .item j => lift ((Item.range r).intersectionItem j)
  | .item (.range r), .union items => do
    unionOf lim ((← intersectionLoop items [.range r]).map .item)
  | .item (.point v), other => do pure (if ← contains other v then .item (.point v) else .empty)
  | .union items, other => do
    unionOf lim ((← intersectionLoop items other.extract).map .item)

/-- `difference` of two items, /repo/versions/version_sets.py 761-831, 992-993. -/
def differenceItem (lim : Nat) : Item → Item → Run VSet
  | .range r, .point v =>
    let self := Item.range r
    if !self.contains v then pure (.item self)
    else if optEq (some v) self.min then
      if self.excludeMin then pure (.item self)
      else do pure (.item (← lift (Item.mkRange self.min self.max false self.includeMax)))
    else if optEq (some v) self.max then
      if self.excludeMax then pure (.item self)
      else do pure (.item (← lift (Item.mkRange self.min self.max self.includeMin false)))
    else do
      let left ← lift (Item.mkRange self.min (some v) self.includeMin false)
      let right ← lift (Item.mkRange (some v) self.max false self.includeMax)
      mergeItems (unionItem lim) [left, right]
  | .range r, .range s => do
    let self := Item.range r
    let other := Item.range s
    if !self.intersectsItem other then pure (.item self)
    else
      let before ← lift (self.differenceBefore other)
      let after ← lift (self.differenceAfter other)
      match before, after with
      | none, none => pure .empty
      | none, some after => pure (.item after)
      | some before, none => pure (.item before)
      | some before, some after => mergeItems (unionItem lim) [before, after]
  | .point v, other => pure (if other.contains v then .empty else .item (.point v))

/-- /repo/versions/version_sets.py 833-853. -/
def differenceIterator (lim : Nat) : Item → List Item → Run (List Item)
  | current, [] => pure [current]
  | current, item :: rest => tick (
    if item.isStrictlyLower current then differenceIterator lim current rest
    else if item.isStrictlyHigher current then pure [current]
    else do
      match ← differenceItem lim current item with
      | .union items => match items with
        | [left, right] => do pure (left :: (← differenceIterator lim right rest))
        | _ => lift (.error .valueError)
      | .item difference => differenceIterator lim difference rest
      | .empty => differenceIterator lim current rest)

/-- /repo/versions/version_sets.py 1271-1310. -/
def step (lim : Nat) (d : VSet.Diff) : Run (VSet.Diff × Bool) :=
  match d.current, d.otherCurrent with
  | some current, some otherCurrent =>
    if otherCurrent.isStrictlyLower current then pure d.nextOtherCurrent
    else if otherCurrent.isStrictlyHigher current then pure d.nextCurrent
    else do
      match ← differenceItem lim current otherCurrent with
      | .union items => match items with
        | [left, right] =>
          pure { d with result := left :: d.result, current := some right }.nextOtherCurrent
        | _ => lift (.error .valueError)
      | .empty => pure (d.nextCurrent false)
      | .item difference =>
        let d := { d with current := some difference }
        if difference.isHigher otherCurrent then pure d.nextOtherCurrent else pure d.nextCurrent
  | _, _ => pure (d, false)

/-- /repo/versions/version_sets.py 1312-1319. -/
def diffLoop (lim : Nat) : Nat → VSet.Diff → Run VSet.Diff
  | 0, _ => lift (.error .recursionError)
  | fuel + 1, d => tick do
    match ← step lim d with
    | (d, true) => diffLoop lim fuel d
    | (d, false) => pure d

/-- /repo/versions/version_sets.py 1263-1269, 1321-1326. -/
def compute (lim : Nat) (items otherItems : List Item) : Run (List Item) := do
  let d ← diffLoop lim (items.length + otherItems.length + 1)
    ⟨items.tail, otherItems.tail, items.head?, otherItems.head?, []⟩
  pure d.result.reverse

/-- `difference`. -/
def difference (lim : Nat) : VSet → VSet → Run VSet
  | .empty, _ => pure .empty
  | .item (.range r), .empty => pure (.item (.range r))
  | .item (.range r), .item j => differenceItem lim (.range r) j
  | .item (.range r), .union items => do
    unionOf lim ((← differenceIterator lim (.range r) items).map .item)
  | .item (.point v), other => do pure (if ← contains other v then .empty else .item (.point v))
  | .union items, other => do
    unionOf lim ((← compute lim items other.extract).map .item)

/-- `complement`. -/
def complement (lim : Nat) : VSet → Run VSet
  | .empty => pure .universal
  | other => difference lim .universal other

mutual
/-- `specifier_to_version_set`, /repo/versions/converters.py 58-84, with the rounds of the set operations it calls; those for
one operator (at most the `complement` of one item) are not counted. -/
def toSet (lim : Nat) : Specifier → Run VSet
  | .one o => lift (o.toSet lim)
  | .never => pure .empty
  | .always => pure .universal
  | .all l => match l with
    | [] => lift (.error .typeError)
    | s :: rest => do reduceAll lim (← toSet lim s) rest
  | .any l => match l with
    | [] => lift (.error .typeError)
    | s :: rest => do reduceAny lim (← toSet lim s) rest
/-- The rest of `reduce(version_set_intersection, map(specifier_to_version_set, ...))`. -/
def reduceAll (lim : Nat) : VSet → List Specifier → Run VSet
  | acc, [] => pure acc
  | acc, s :: rest => do reduceAll lim (← intersection lim acc (← toSet lim s)) rest
/-- The rest of `reduce(version_set_union, map(specifier_to_version_set, ...))`. -/
def reduceAny (lim : Nat) : VSet → List Specifier → Run VSet
  | acc, [] => pure acc
  | acc, s :: rest => do reduceAny lim (← unionWith lim acc (← toSet lim s)) rest
end

end Rounds

end Verif
