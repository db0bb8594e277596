import Verif.Model.Py
/-!
# Regular expressions: the part of `re` that /repo/versions/patterns.py uses

`fullmatch` finds the first way to match the whole string, in the order in which the backtracking engine tries them:
alternatives from left to right, optional parts and repetitions greedily. `Re.run` lists the ways to match a prefix in
that order. All patterns are compiled with `re.IGNORECASE` (on `str`, so Unicode) and `re.VERBOSE`.
-/

namespace Verif

/-- The named groups, /repo/versions/patterns.py 112-133, 206-207. -/
inductive Grp
  | epoch | release
  | phase | value
  | pre | prePhase | preValue
  | postImplicit
  | post | postPhase | postValue
  | dev | devPhase | devValue
  | local_
  | operator | version
  deriving DecidableEq, Repr

inductive Re
  /-- one character -/
  | chr (p : Char → Bool)
  | eps
  | seq (a b : Re)
  /-- `a|b` -/
  | alt (a b : Re)
  /-- `a?` -/
  | opt (a : Re)
  /-- `a*` -/
  | star (a : Re)
  /-- `(?P<g>a)` -/
  | group (g : Grp) (a : Re)

namespace Re

/-- `a+` -/
def plus (a : Re) : Re := seq a (star a)

/-- Captured groups, latest first. -/
abbrev Caps := List (Grp × PyStr)

/-- What remains of the string, and the captured groups. -/
abbrev State := PyStr × Caps

/-- Repeat `f` at most `n` times, as often as possible first; repetitions must consume something. -/
def iterate (f : State → List State) : Nat → State → List State
  | 0, st => [st]
  | n + 1, st => ((f st).filter (fun st' => decide (st'.1.length < st.1.length))).flatMap (iterate f n) ++ [st]

/-- The ways to match a prefix, in the order in which they are tried. -/
def run : Re → State → List State
  | chr p, st => match st.1 with
    | [] => []
    | c :: rest => if p c then [(rest, st.2)] else []
  | eps, st => [st]
  | seq a b, st => (run a st).flatMap (run b)
  | alt a b, st => run a st ++ run b st
  | opt a, st => run a st ++ [st]
  | star a, st => iterate (run a) st.1.length st
  | group g a, st => (run a st).map (fun st' => (st'.1, (g, st.1.take (st.1.length - st'.1.length)) :: st'.2))

/-- `pattern.fullmatch(string)`; `none` is `None`. -/
def fullmatch (r : Re) (s : PyStr) : Option Caps := ((run r (s, [])).find? (fun st => st.1.isEmpty)).map (·.2)

/-- `match.group(name)`; `none` is `None`. -/
def get (g : Grp) (caps : Caps) : Option PyStr := (caps.find? (fun c => decide (c.1 = g))).map (·.2)

/-! ### characters, ignoring case

Two characters match if their lower case is the same, or if they are in the table of extra cases of `re`. The only
characters outside ASCII that are involved: İ (U+0130) has lower case i, the Kelvin sign (U+212A) has lower case k, and
ı (U+0131) and ſ (U+017F) are extra cases of i and s. -/

/-- `_sre.unicode_tolower`, on the characters with an ASCII lower case; others stay themselves here. -/
def lower (c : Char) : Char :=
  if c = '\u0130' then 'i' else if c = '\u212a' then 'k' else if 'A' ≤ c ∧ c ≤ 'Z' then Char.ofNat (c.toNat + 32) else c

/-- A literal letter, given in lower case. -/
def letter (l : Char) : Re := chr fun c => decide (lower c = l) || (decide (l = 'i') && decide (c = '\u0131')) || (decide (l = 's') && decide (c = '\u017f'))

def isAlpha (c : Char) : Bool := decide ('a' ≤ lower c ∧ lower c ≤ 'z') || decide (c = '\u0131') || decide (c = '\u017f')
def isDigit (c : Char) : Bool := decide ('0' ≤ c ∧ c ≤ '9')
def isSeparator (c : Char) : Bool := decide (c = '.') || decide (c = '-') || decide (c = '_')

/-- A literal character without case. -/
def lit (l : Char) : Re := chr fun c => decide (c = l)

def seqs : List Re → Re
  | [] => eps
  | [a] => a
  | a :: l => seq a (seqs l)

def alts : List Re → Re
  | [] => chr fun _ => false
  | [a] => a
  | a :: l => alt a (alts l)

/-- A literal lower case word. -/
def word (s : String) : Re := seqs (s.toList.map letter)
/-- A literal string of characters without case. -/
def lits (s : String) : Re := seqs (s.toList.map lit)

end Re

/-! ## /repo/versions/patterns.py -/

namespace Pattern
open Re

/-- /repo/versions/patterns.py 98-102. -/
def alpha : Re := chr isAlpha
def digit : Re := chr isDigit
def alphaDigit : Re := chr fun c => isAlpha c || isDigit c
def digits : Re := plus digit
/-- /repo/versions/patterns.py 106, `[\.\-_]`. -/
def separator : Re := chr isSeparator

/-- /repo/versions/constants.py 94-96. -/
def prePhases : List String := ["alpha", "beta", "a", "b", "c", "rc", "preview", "pre"]
def postPhases : List String := ["post", "rev", "r"]
def devPhases : List String := ["dev"]

def phases (l : List String) : Re := alts (l.map word)

/-- /repo/versions/patterns.py 137-138; the anchors are implied by `fullmatch`. -/
def tag : Re := seqs [group .phase (plus alpha), opt (seqs [opt separator, group .value digits])]

/-- `[0-9]+(?:\.[0-9]+)*` -/
def releaseNumbers : Re := seq digits (star (seq (lit '.') digits))

/-- /repo/versions/patterns.py 142-190. -/
def publicVersion : Re := seqs [
  opt (letter 'v'),
  opt (seqs [group .epoch digits, lit '!']),
  group .release releaseNumbers,
  opt (seqs [opt separator,
    group .pre (seqs [group .prePhase (phases prePhases), opt (seqs [opt separator, group .preValue digits])])]),
  opt (alt
    (seqs [lit '-', group .postImplicit digits])
    (seqs [opt separator,
      group .post (seqs [group .postPhase (phases postPhases), opt (seqs [opt separator, group .postValue digits])])])),
  opt (seqs [opt separator,
    group .dev (seqs [group .devPhase (phases devPhases), opt (seqs [opt separator, group .devValue digits])])])]

/-- /repo/versions/patterns.py 194-198. -/
def local_ : Re := opt (seqs [lit '+', group .local_ (seq (plus alphaDigit) (star (seq separator (plus alphaDigit))))])

/-- /repo/versions/patterns.py 200-202. -/
def version : Re := seq publicVersion local_

/-- /repo/versions/patterns.py 214. -/
def wildcard : Re := alt (letter 'x') (lit '*')

/-- /repo/versions/patterns.py 216-302. -/
def wildcardVersion : Re := seqs [
  opt (letter 'v'),
  opt (seqs [digits, lit '!']),
  alt wildcard (seqs [
    releaseNumbers,
    alt (seqs [lit '.', wildcard])
      (alt (seqs [opt separator, seqs [phases prePhases, opt separator, wildcard]])
        (seqs [
          opt (seqs [opt separator, seqs [phases prePhases, opt (seqs [opt separator, digits])]]),
          alt
            (alt (seqs [lit '-', wildcard]) (seqs [opt separator, seqs [phases postPhases, opt separator, wildcard]]))
            (seqs [
              opt (alt (seqs [lit '-', digits])
                (seqs [opt separator, seqs [phases postPhases, opt (seqs [opt separator, digits])]])),
              seqs [opt separator, seqs [phases devPhases, opt separator, wildcard]]])]))])]

/-- /repo/versions/patterns.py 306-311. -/
def wildcardSpecification : Re :=
  seqs [opt (group .operator (alts [lits "==", lits "=", lits "!="])), group .version wildcardVersion]
/-- /repo/versions/patterns.py 313-318. -/
def orderSpecification : Re :=
  seqs [group .operator (alts [lits "<=", lits ">=", lits "<", lits ">"]), group .version publicVersion]
/-- /repo/versions/patterns.py 320-324. -/
def caretSpecification : Re := seqs [group .operator (lits "^"), group .version publicVersion]
/-- /repo/versions/patterns.py 326-330. -/
def tildeSpecification : Re := seqs [group .operator (alts [lits "~=", lits "~"]), group .version publicVersion]
/-- /repo/versions/patterns.py 332-337. -/
def equalSpecification : Re :=
  seqs [opt (group .operator (alts [lits "==", lits "=", lits "!="])), group .version version]

end Pattern
end Verif
