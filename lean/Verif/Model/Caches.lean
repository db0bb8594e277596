import Verif.Model.Hash
/-!
# The caches: /repo/versions/utils.py 17 and the decorated functions

`lru_cache(None)` keeps a dictionary that is never emptied. The dictionary is a list of entries; looking a key up compares
the full hashes, and if they agree calls `==`. (The dictionary also takes identity for equality; `==` is reflexive on the
keys modelled. With one argument which is not a string the key is the one-item tuple of it.) Exceptions are not stored.
-/

namespace Verif

/-- The entries of a cache, latest first. -/
abbrev Cache (α β : Type) := List (α × β)

/-- A computation that may raise and may change the cache in any case. -/
abbrev Cached (α β γ : Type) := Cache α β → Except PyErr γ × Cache α β

namespace Cached
variable {α β γ δ : Type}

def pure (r : Except PyErr γ) : Cached α β γ := fun c => (r, c)

/-- Run `m`, then `f` on its result unless it raised. -/
def andThen (m : Cached α β γ) (f : γ → Cached α β δ) : Cached α β δ := fun c =>
  match m c with
  | (.error e, c') => (.error e, c')
  | (.ok x, c') => f x c'

/-- The wrapper made by `lru_cache(None)` around a call with argument `key`. -/
def wrap (hash : α → Int) (eq : α → α → Bool) (key : α) (body : Cached α β β) : Cached α β β := fun c =>
  match c.find? (fun entry => decide (hash entry.1 = hash key) && eq entry.1 key) with
  | some entry => (.ok entry.2, c)
  | none =>
    match body c with
    | (.error e, c') => (.error e, c')
    | (.ok x, c') => (.ok x, (key, x) :: c')

/-- The cache after a history of calls: the results are dropped. -/
def after (calls : List (Cached α β γ)) : Cache α β := calls.foldl (fun c call => (call c).2) []

end Cached

namespace Specifier
variable (H : Hasher) (lim : Nat)

mutual
/-- `specifier_to_version_set` with its cache, /repo/versions/converters.py 57-84: the calls for the parts go through the
cache as well. -/
def toSetCached : Specifier → Cached Specifier VSet VSet
  | one o => .wrap H.specifier Specifier.eq (one o) (.pure (o.toSet lim))
  | never => .wrap H.specifier Specifier.eq never (.pure (.ok .empty))
  | always => .wrap H.specifier Specifier.eq always (.pure (.ok .universal))
  | all l => .wrap H.specifier Specifier.eq (all l) (match l with
    | [] => .pure (.error .typeError)
    | s :: rest => (toSetCached s).andThen fun x => reduceAllCached x rest)
  | any l => .wrap H.specifier Specifier.eq (any l) (match l with
    | [] => .pure (.error .typeError)
    | s :: rest => (toSetCached s).andThen fun x => reduceAnyCached x rest)
def reduceAllCached : VSet → List Specifier → Cached Specifier VSet VSet
  | acc, [] => .pure (.ok acc)
  | acc, s :: rest => (toSetCached s).andThen fun x =>
      (Cached.pure (acc.intersection lim x)).andThen fun y => reduceAllCached y rest
def reduceAnyCached : VSet → List Specifier → Cached Specifier VSet VSet
  | acc, [] => .pure (.ok acc)
  | acc, s :: rest => (toSetCached s).andThen fun x =>
      (Cached.pure (acc.unionWith lim x)).andThen fun y => reduceAnyCached y rest
end

/-- `version_set_to_specifier` with its cache on an item of a union, /repo/versions/converters.py 93-117. -/
def fromItemCached (i : Item) : Cached VSet Specifier Specifier :=
  .wrap H.vset VSet.eq (.item i) (.pure (fromItem i))

/-- The specifiers of the items of a union, in order: `SpecifierAny.of_iterable` makes a tuple first,
/repo/versions/specifiers.py 129-131. -/
def fromItemsCached : List Item → Cached VSet Specifier (List Specifier)
  | [] => .pure (.ok [])
  | i :: rest => (fromItemCached H i).andThen fun s => (fromItemsCached rest).andThen fun l => .pure (.ok (s :: l))

/-- `version_set_to_specifier` with its cache, /repo/versions/converters.py 93-124. -/
def fromSetCached : VSet → Cached VSet Specifier Specifier
  | .empty => .wrap H.vset VSet.eq .empty (.pure (.ok never))
  | .item i => fromItemCached H i
  | .union items => .wrap H.vset VSet.eq (.union items) ((Cached.pure (tryExcludeVersion lim items)).andThen fun
    | some s => .pure (.ok s)
    | none => (fromItemsCached H items).andThen fun l => .pure (anyOf l))

end Specifier
end Verif
