import Verif.Model.Hash
/-!
# Dictionaries and sets of objects

What CPython does when a key is added to a `dict` or a `set` without deletions: the entries with the full hash of the key
are met in the order in which they were added, and `==` is called on each until one says `True`. Entries with another hash
cost no call of `==`. (Identity is looked at before `==`; the keys here are different objects.) This is how users of the
library keep versions in sets, and what `lru_cache` does with the arguments of the cached functions, /repo/versions/utils.py
17.
-/

namespace Verif.Dict
variable {α : Type} (hash : α → Int) (eq : α → α → Bool)

/-- Whether the key is there, and how many times `==` was called. -/
def probe (k : α) : List α → Bool × Nat
  | [] => (false, 0)
  | e :: es =>
    if hash e = hash k then
      if eq e k then (true, 1) else ((probe k es).1, (probe k es).2 + 1)
    else probe k es

/-- Add a key to the entries (in order of addition), counting the calls of `==`. -/
def add (d : List α × Nat) (k : α) : List α × Nat :=
  match probe hash eq k d.1 with
  | (true, n) => (d.1, d.2 + n)
  | (false, n) => (d.1 ++ [k], d.2 + n)

/-- `set(keys)`. -/
def build (keys : List α) : List α × Nat := keys.foldl (add hash eq) ([], 0)

end Verif.Dict
