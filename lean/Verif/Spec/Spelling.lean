import Mathlib.Data.List.Forall2
import Verif.Spec.Basic
/-!
# Spellings of versions

The grammar of version strings, written down independently of the regular expressions: a `Spelling` is a version string
cut into its parts.
-/

namespace Verif

/-- Lower case, with the characters that `re.IGNORECASE` also identifies with an ASCII letter. -/
def foldCase (c : Char) : Char :=
  if 'A' ≤ c ∧ c ≤ 'Z' then Char.ofNat (c.toNat + 32)
  else if c = '\u0130' ∨ c = '\u0131' then 'i'
  else if c = '\u017f' then 's'
  else if c = '\u212a' then 'k'
  else c

/-- A letter, up to case. -/
def IsLetter (c : Char) : Prop := 'a' ≤ foldCase c ∧ foldCase c ≤ 'z'
/-- An ASCII digit. -/
def IsDigit (c : Char) : Prop := '0' ≤ c ∧ c ≤ '9'
/-- One of the separators. -/
def IsSep (c : Char) : Prop := c = '.' ∨ c = '-' ∨ c = '_'

instance (c : Char) : Decidable (IsLetter c) := inferInstanceAs (Decidable (_ ∧ _))
instance (c : Char) : Decidable (IsDigit c) := inferInstanceAs (Decidable (_ ∧ _))
instance (c : Char) : Decidable (IsSep c) := inferInstanceAs (Decidable (_ ∨ _ ∨ _))

/-- A non-empty string of digits. -/
def Digits (s : PyStr) : Prop := s ≠ [] ∧ ∀ c ∈ s, IsDigit c
instance (s : PyStr) : Decidable (Digits s) := inferInstanceAs (Decidable (_ ∧ _))
/-- A separator or nothing. -/
def OptSep (s : PyStr) : Prop := s = [] ∨ ∃ c, s = [c] ∧ IsSep c
/-- A non-empty string of letters and digits. -/
def AlphaNum (s : PyStr) : Prop := s ≠ [] ∧ ∀ c ∈ s, IsLetter c ∨ IsDigit c

/-- The number that a string of digits denotes. -/
def number (s : PyStr) : Nat := s.foldl (fun n c => 10 * n + (c.toNat - 48)) 0

/-- A tag: separator, phase, and possibly another separator and the value. -/
structure TagSpelling where
  sep : PyStr
  phase : PyStr
  value : Option (PyStr × PyStr)

namespace TagSpelling
def valueText (t : TagSpelling) : PyStr := match t.value with
  | none => []
  | some (sep, d) => sep ++ d
def body (t : TagSpelling) : PyStr := t.phase ++ t.valueText
def text (t : TagSpelling) : PyStr := t.sep ++ t.body
def num (t : TagSpelling) : Nat := match t.value with
  | none => 0
  | some (_, d) => number d
/-- The phase is one of `phases` up to case. -/
structure WF (phases : List PyStr) (t : TagSpelling) : Prop where
  sep : OptSep t.sep
  phase : t.phase.map foldCase ∈ phases
  value : ∀ s d, t.value = some (s, d) → OptSep s ∧ Digits d
end TagSpelling

/-- The post release: `-1`, or a tag. -/
inductive PostSpelling
  | implicit (d : PyStr)
  | tag (t : TagSpelling)

namespace PostSpelling
def text : PostSpelling → PyStr
  | implicit d => '-' :: d
  | tag t => t.text
def WF (phases : List PyStr) : PostSpelling → Prop
  | implicit d => Digits d
  | tag t => t.WF phases
end PostSpelling

/-- The words allowed for the phases in version strings. -/
def preWords : List PyStr := ["alpha".toList, "beta".toList, "a".toList, "b".toList, "c".toList, "rc".toList, "preview".toList, "pre".toList]
def postWords : List PyStr := ["post".toList, "rev".toList, "r".toList]
def devWords : List PyStr := ["dev".toList]

structure Spelling where
  /-- the leading `v` -/
  v : PyStr
  epoch : Option PyStr
  /-- the first release number -/
  major : PyStr
  /-- the other release numbers -/
  release : List PyStr
  pre : Option TagSpelling
  post : Option PostSpelling
  dev : Option TagSpelling
  /-- the local segment: first part, and the other parts with the separators before them -/
  local_ : Option (PyStr × List (Char × PyStr))

namespace Spelling

def optText {α : Type} (f : α → PyStr) : Option α → PyStr
  | none => []
  | some x => f x

def epochText (e : Option PyStr) : PyStr := optText (fun d => d ++ ['!']) e
def releaseText (major : PyStr) (l : List PyStr) : PyStr := major ++ (l.map ('.' :: ·)).flatten
def localBody (l : PyStr × List (Char × PyStr)) : PyStr := l.1 ++ (l.2.map (fun x => x.1 :: x.2)).flatten
def localText (l : Option (PyStr × List (Char × PyStr))) : PyStr := optText (fun l => '+' :: localBody l) l

/-- The version string. -/
def text (p : Spelling) : PyStr :=
  p.v ++ epochText p.epoch ++ releaseText p.major p.release ++ optText TagSpelling.text p.pre
    ++ optText PostSpelling.text p.post ++ optText TagSpelling.text p.dev ++ localText p.local_

structure WF (p : Spelling) : Prop where
  v : p.v = [] ∨ p.v = ['v'] ∨ p.v = ['V']
  epoch : ∀ d, p.epoch = some d → Digits d
  major : Digits p.major
  release : ∀ d ∈ p.release, Digits d
  pre : ∀ t, p.pre = some t → t.WF preWords
  post : ∀ t, p.post = some t → t.WF postWords
  dev : ∀ t, p.dev = some t → t.WF devWords
  local_ : ∀ l, p.local_ = some l → AlphaNum l.1 ∧ ∀ x ∈ l.2, IsSep x.1 ∧ AlphaNum x.2

/-- Not a pre tag without value followed by an implicit post release: `1a-1` is read as `1a1`. -/
def Greedy (p : Spelling) : Prop := ∀ t d, p.pre = some t → p.post = some (.implicit d) → t.value ≠ none

/-! ### meaning -/

/-- What the words for the phases mean. -/
def phaseMeaning : List (PyStr × PyStr) :=
  [("alpha", "alpha"), ("a", "alpha"), ("beta", "beta"), ("b", "beta"), ("c", "candidate"), ("rc", "rc"),
    ("preview", "preview"), ("pre", "preview"), ("post", "post"), ("rev", "rev"), ("r", "rev"), ("dev", "dev")].map
    (fun e => (e.1.toList, e.2.toList))

/-- The tag spelled. The phase must be in lower case. -/
def TagOf (s : TagSpelling) (t : Tag) : Prop := (s.phase, t.phase) ∈ phaseMeaning ∧ t.value = s.num

def PostOf : PostSpelling → Tag → Prop
  | .implicit d, t => t = ⟨"post".toList, number d⟩
  | .tag s, t => TagOf s t

/-- Both absent, or both present and related. -/
def OptOf {α β : Type} (r : α → β → Prop) : Option α → Option β → Prop
  | none, none => True
  | some a, some b => r a b
  | _, _ => False

/-- A part of the local segment: a number if it consists of digits. -/
def PartOf (s : PyStr) (x : LocalPart) : Prop := (Digits s ∧ x = .int (number s)) ∨ (¬ Digits s ∧ x = .str s)

def LocalOf (l : PyStr × List (Char × PyStr)) (x : Local) : Prop := List.Forall₂ PartOf (l.1 :: l.2.map (·.2)) x.parts

/-- The version spelled. -/
structure Of (p : Spelling) (v : Version) : Prop where
  epoch : v.epoch.value = (p.epoch.map number).getD 0
  release : v.release.parts = (p.major :: p.release).map (fun d => (number d : Int))
  pre : OptOf TagOf p.pre v.pre
  post : OptOf PostOf p.post v.post
  dev : OptOf TagOf p.dev v.dev
  local_ : OptOf LocalOf p.local_ v.local_

/-- All phases are in lower case. -/
structure LowerCase (p : Spelling) : Prop where
  pre : ∀ t, p.pre = some t → t.phase ∈ preWords
  post : ∀ t, p.post = some (.tag t) → t.phase ∈ postWords
  dev : ∀ t, p.dev = some t → t.phase ∈ devWords

end Spelling
/-! ### versions that have a spelling -/

/-- Local parts that strings can hold: numbers that are not negative, and strings of letters and digits which are not
all digits. -/
def LocalPart.Canonical : LocalPart → Prop
  | .int n => 0 ≤ n
  | .str s => AlphaNum s ∧ ¬ Digits s

/-- Versions built through the API with non-negative numbers and well-formed local parts. -/
structure Version.Canonical (v : Version) : Prop where
  valid : v.Valid
  epoch : 0 ≤ v.epoch.value
  release : v.release.NonNeg
  pre : ∀ t, v.pre = some t → 0 ≤ t.value
  post : ∀ t, v.post = some t → 0 ≤ t.value
  dev : ∀ t, v.dev = some t → 0 ≤ t.value
  local_ : ∀ l, v.local_ = some l → ∀ p ∈ l.parts, p.Canonical

end Verif
