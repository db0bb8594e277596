import Verif.Model.Messages
import Verif.Spec.SpecifierText
/-!
# What the messages of the parsers should say
-/

namespace Verif

/-- The first tag of a version string (pre, post, dev) whose phase is not in lower case: the phase as it is written, and the
name of the class of the tag. -/
inductive FirstUpper (p : Spelling) : PyStr → PyStr → Prop
  | pre {t : TagSpelling} : p.pre = some t → t.phase ∉ preWords → FirstUpper p t.phase "PreTag".toList
  | post {t : TagSpelling} : (∀ t, p.pre = some t → t.phase ∈ preWords) → p.post = some (.tag t) → t.phase ∉ postWords →
      FirstUpper p t.phase "PostTag".toList
  | dev {t : TagSpelling} : (∀ t, p.pre = some t → t.phase ∈ preWords) → (∀ t, p.post = some (.tag t) → t.phase ∈ postWords) →
      p.dev = some t → t.phase ∉ devWords → FirstUpper p t.phase "DevTag".toList

/-- What is said about a phase in a tag of a class. -/
def phaseText (phase name : PyStr) : PyStr := "phase `".toList ++ (phase ++ ("` is not allowed in `".toList ++ (name ++ "`".toList)))
/-- What is said about a string that can not be read. -/
def parseText (s what : PyStr) : PyStr := "can not parse `".toList ++ (s ++ ("` to `".toList ++ (what ++ "`".toList)))

/-- The exception for a version string. -/
inductive VersionRaises : PyStr → Raised → Prop
  | grammar {s : PyStr} : (¬ ∃ p : Spelling, p.WF ∧ s = p.text) → VersionRaises s ⟨.parseVersionError, parseText s "Version".toList⟩
  | phase {p : Spelling} {phase name : PyStr} : p.WF → p.Greedy → FirstUpper p phase name → VersionRaises p.text ⟨.valueError, phaseText phase name⟩

/-- The exception for a specifier string without whitespace, commas and pipes. -/
inductive SingleRaises : PyStr → Raised → Prop
  /-- it does not have the form of a specifier: the whole is shown -/
  | form {s : PyStr} : ¬ SingleForm s → SingleRaises s ⟨.parseSpecificationError, parseText s "specification".toList⟩
  /-- the wildcard is `X`: what follows the sign is shown -/
  | upper {o : PyStr} {t : OpType} {p : Spelling} : (o, t) ∈ wildcardWords → p.WF → p.EndsInZero →
      SingleRaises (o ++ p.wild 'X') ⟨.parseVersionError, parseText (p.wild 'X') "Version".toList⟩
  /-- a phase is not in lower case -/
  | compare {o : PyStr} {t : OpType} {p : Spelling} {phase name : PyStr} : (o, t) ∈ compareWords → p.WF → p.Greedy → p.local_ = none →
      FirstUpper p phase name → SingleRaises (o ++ p.text) ⟨.valueError, phaseText phase name⟩
  | equal {o : PyStr} {t : OpType} {p : Spelling} {phase name : PyStr} : (o, t) ∈ equalWords → p.WF → p.Greedy →
      FirstUpper p phase name → SingleRaises (o ++ p.text) ⟨.valueError, phaseText phase name⟩
  | wildcard {o : PyStr} {t : OpType} {p : Spelling} {c : Char} {phase name : PyStr} : (o, t) ∈ wildcardWords → p.WF → p.Greedy → p.EndsInZero →
      (c = 'x' ∨ c = '*') → FirstUpper p phase name → SingleRaises (o ++ p.wild c) ⟨.valueError, phaseText phase name⟩
  /-- one release number after `~=` -/
  | tilde {p : Spelling} : p.WF → p.Greedy → p.local_ = none → p.LowerCase → p.release = [] →
      SingleRaises ("~=".toList ++ p.text) ⟨.valueError, "`~=` can not be used with with a single version segment".toList⟩

end Verif
