import Verif.Spec.Pep440Order
/-!
# The normal form of PEP 440, by rewriting the text

The normalization rules of PEP 440, applied to the parts of a version string: numbers lose their leading zeros, phases
take their normal spelling, separators become dots or disappear, omitted numbers become zero, implicit post releases
become explicit, and local labels become lower case. No version is built and no number is computed.
-/

namespace Verif
namespace Pep440

/-- A string of digits without its leading zeros. -/
def strip (d : PyStr) : PyStr := match d.dropWhile (· = '0') with
  | [] => ['0']
  | c :: r => c :: r

/-- The normal spelling of a word for a pre-release, in any case. -/
def preWord (w : PyStr) : PyStr :=
  if w.map foldCase ∈ ["a".toList, "alpha".toList] then ['a'] else if w.map foldCase ∈ ["b".toList, "beta".toList] then ['b'] else ['r', 'c']

/-- The number after a phase; 0 if it is omitted. -/
def valueText (t : TagSpelling) : PyStr := match t.value with
  | none => ['0']
  | some (_, d) => strip d

def postText : PostSpelling → PyStr
  | .implicit d => ".post".toList ++ strip d
  | .tag t => ".post".toList ++ valueText t

def epochText : Option PyStr → PyStr
  | none => []
  | some d => if strip d = ['0'] then [] else strip d ++ ['!']

/-- Numbers lose their leading zeros, other labels are changed by `f`. -/
def labelText (f : Char → Char) (s : PyStr) : PyStr := if Digits s then strip s else s.map f

/-- The normal text, with `f` applied to the characters of the local labels. -/
def textWith (f : Char → Char) (p : Spelling) : PyStr :=
  epochText p.epoch ++ (strip p.major ++ (p.release.map (fun d => '.' :: strip d)).flatten)
    ++ Spelling.optText (fun t => preWord t.phase ++ valueText t) p.pre
    ++ Spelling.optText postText p.post
    ++ Spelling.optText (fun t => ".dev".toList ++ valueText t) p.dev
    ++ Spelling.optText (fun l => '+' :: (labelText f l.1 ++ (l.2.map (fun x => '.' :: labelText f x.2)).flatten)) p.local_

/-- The normal form of PEP 440. -/
def normalText (p : Spelling) : PyStr := textWith lower p

/-- The local labels have no upper-case letters. -/
def LowerLabels (p : Spelling) : Prop := ∀ l, p.local_ = some l → ∀ s ∈ l.1 :: l.2.map (·.2), ∀ c ∈ s, ¬ ('A' ≤ c ∧ c ≤ 'Z')

end Pep440
end Verif
