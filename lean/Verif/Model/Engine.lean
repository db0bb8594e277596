import Verif.Model.Regex
/-!
# The matching engine of `re`, with a count of its steps

`Re.run` lists all ways to match. The engine behind `pattern.fullmatch` (called in /repo/versions/parsers.py 78, 131,
195, 217, 240) does not build such a list: it tries one alternative after the other, with a continuation for what is
left of the pattern, and stops at the first success. Every visit of a node of
the pattern is one step. (CPython's engine treats repetitions of single characters in tight loops and looks ahead for
literals, so it visits fewer nodes than this.)
-/

namespace Verif.Re

/-- What a search found, and how many steps it took. -/
structure Outcome where
  result : Option Caps
  steps : Nat
  deriving DecidableEq, Repr

namespace Outcome

/-- One more step. -/
def tick (o : Outcome) : Outcome := { o with steps := o.steps + 1 }

/-- Try `a`, and `b` if `a` failed. -/
def orElse (a b : Outcome) : Outcome :=
  match a.result with
  | some _ => a
  | none => ⟨b.result, a.steps + b.steps⟩

/-- Failure, in one step. -/
def fail : Outcome := ⟨none, 1⟩

end Outcome

/-- `a*`, greedily: one more round, which must consume something, or what comes after. `n` bounds the number of rounds
(each consumes a character). -/
def repeatEngine (body : (State → Outcome) → State → Outcome) (k : State → Outcome) : Nat → State → Outcome
  | 0, st => (k st).tick
  | n + 1, st =>
    ((body (fun st' => if st'.1.length < st.1.length then repeatEngine body k n st' else .fail) st).orElse (k st)).tick

/-- Match a prefix with the pattern, then go on with `k`. -/
def engine : Re → (State → Outcome) → State → Outcome
  | chr p, k, st => match st.1 with
    | [] => .fail
    | c :: rest => if p c then (k (rest, st.2)).tick else .fail
  | eps, k, st => (k st).tick
  | seq a b, k, st => (engine a (engine b k) st).tick
  | alt a b, k, st => ((engine a k st).orElse (engine b k st)).tick
  | opt a, k, st => ((engine a k st).orElse (k st)).tick
  | star a, k, st => repeatEngine (engine a) k st.1.length st
  | group g a, k, st =>
    (engine a (fun st' => k (st'.1, (g, st.1.take (st.1.length - st'.1.length)) :: st'.2)) st).tick

/-- The end of `fullmatch`: the whole string must have been consumed. -/
def atEnd (st : State) : Outcome := ⟨if st.1.isEmpty then some st.2 else none, 1⟩

/-- `pattern.fullmatch(string)`, with the number of steps. -/
def search (r : Re) (s : PyStr) : Outcome := engine r atEnd (s, [])

end Verif.Re
