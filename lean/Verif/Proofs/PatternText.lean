import Verif.Model.PatternText
import Verif.Spec.Caseless
/-!
# The texts of the patterns parse to the trees of `Verif.Model.Regex`

First the texts after substitution, then the trees that the parser returns for them (both computed by the kernel), then
the meaning of the trees.
-/

namespace Verif

/-- A string literal is the string of its list of characters. -/
theorem of_literal {P : PyStr → Prop} {l : PyStr} (h : P l) : P (String.ofList l).toList := by
  simpa only [String.toList_ofList] using h

theorem of_literals {P : PyStr → PyStr → Prop} {l m : PyStr} (h : P l m) :
    P (String.ofList l).toList (String.ofList m).toList := by
  simpa only [String.toList_ofList] using h

namespace Rx

/-! ## Trees -/

def literal (c : Char) : Rx := cls [(c, c)]

def seqs : List Rx → Rx
  | [] => eps
  | [a] => a
  | a :: l => seq a (seqs l)

def alts : List Rx → Rx
  | [] => cls []
  | [a] => a
  | a :: l => alt a (alts l)

def literals (s : String) : Rx := seqs (s.toList.map literal)
def words (l : List String) : Rx := alts (l.map literals)

def alpha : Rx := cls [('a', 'z')]
def digit : Rx := cls [('0', '9')]
def alphaDigit : Rx := cls [('a', 'z'), ('0', '9')]
def separator : Rx := cls [('.', '.'), ('-', '-'), ('_', '_')]
def digits : Rx := plus digit
def numbers : Rx := seqs [digits, star (seqs [literal '.', digits])]

/-- `(?:[\.\-_]?a)` -/
def separated (a : Rx) : Rx := seqs [opt separator, a]

def publicItems : List Rx := [
  opt (literal 'v'),
  opt (seqs [group .epoch digits, literal '!']),
  group .release numbers,
  opt (separated (group .pre (seqs [group .prePhase (words Pattern.prePhases), opt (separated (group .preValue digits))]))),
  opt (alt (seqs [literal '-', group .postImplicit digits])
    (separated (group .post (seqs [group .postPhase (words Pattern.postPhases), opt (separated (group .postValue digits))])))),
  opt (separated (group .dev (seqs [group .devPhase (words Pattern.devPhases), opt (separated (group .devValue digits))])))]

def localItem : Rx :=
  opt (seqs [literal '+', group .local_ (seqs [plus alphaDigit, star (seqs [separator, plus alphaDigit])])])

def wildcard : Rx := alt (literal 'x') (literal '*')

/-- a phase and a wildcard -/
def phaseWildcard (l : List String) : Rx := separated (seqs [words l, opt separator, wildcard])
/-- a phase and a number, or neither -/
def phaseNumber (l : List String) : Rx := separated (seqs [words l, opt (separated digits)])

def wildcardTree : Rx := seqs [
  opt (literal 'v'),
  opt (seqs [digits, literal '!']),
  alt wildcard (seqs [
    numbers,
    alt (seqs [literal '.', wildcard])
      (alt (phaseWildcard Pattern.prePhases)
        (seqs [
          opt (phaseNumber Pattern.prePhases),
          alt
            (alt (seqs [literal '-', wildcard]) (phaseWildcard Pattern.postPhases))
            (seqs [
              opt (alt (seqs [literal '-', digits]) (phaseNumber Pattern.postPhases)),
              phaseWildcard Pattern.devPhases])]))])]

def tagTree : Rx := seqs [start, group .phase (plus alpha), opt (separated (group .value digits)), finish]
def publicTree : Rx := seqs publicItems
def versionTree : Rx := seqs (publicItems ++ [localItem])
def operators (l : List String) : Rx := group .operator (words l)

/-! ## Texts -/

set_option maxRecDepth 100000

theorem tag_text : PatternText.tag = "^(?P<phase>[a-z]+)(?:[\\.\\-_]?(?P<value>[0-9]+))?$".toList :=
  of_literals (P := fun l m => PatternText.format none l = m) (by decide +kernel)

theorem publicVersion_text : PatternText.publicVersion = "
    v?

    (?:
        (?P<epoch>[0-9]+)!
    )?

    (?P<release>[0-9]+(?:\\.[0-9]+)*)

    (?:
        [\\.\\-_]?

        (?P<pre>
            (?P<pre_phase>alpha|beta|a|b|c|rc|preview|pre)
            (?:
                [\\.\\-_]?
                (?P<pre_value>[0-9]+)
            )?
        )
    )?

    (?:
        (?:-(?P<post_implicit>[0-9]+))
        |
        (?:
            [\\.\\-_]?

            (?P<post>
                (?P<post_phase>post|rev|r)
                (?:
                    [\\.\\-_]?
                    (?P<post_value>[0-9]+)
                )?
            )
        )
    )?

    (?:
        [\\.\\-_]?

        (?P<dev>
            (?P<dev_phase>dev)
            (?:
                [\\.\\-_]?
                (?P<dev_value>[0-9]+)
            )?
        )
    )?
".toList :=
  of_literals (P := fun l m => PatternText.format none l = m) (by decide +kernel)

theorem local_text : PatternText.local_ = "
    (?:
        \\+(?P<local>[a-z0-9]+(?:[\\.\\-_][a-z0-9]+)*)
    )?
".toList :=
  of_literals (P := fun l m => PatternText.format none l = m) (by decide +kernel)

theorem wildcardVersion_text : PatternText.wildcardVersion = "
    v?

    (?:
        (?:[0-9]+)!
    )?

    (?:
        (?:x|\\*)
        |
        (?:
            (?:[0-9]+(?:\\.[0-9]+)*)

            (?:
                (?:\\.(?:x|\\*))
                |
                (?:
                    (?:
                        [\\.\\-_]?

                        (?:
                            (?:alpha|beta|a|b|c|rc|preview|pre)
                            [\\.\\-_]?
                            (?:x|\\*)
                        )
                    )
                    |
                    (?:
                        (?:
                            [\\.\\-_]?

                            (?:
                                (?:alpha|beta|a|b|c|rc|preview|pre)
                                (?:
                                    [\\.\\-_]?
                                    (?:[0-9]+)
                                )?
                            )
                        )?
                        (?:
                            (?:
                                (?:-(?:x|\\*))
                                |
                                (?:
                                    [\\.\\-_]?

                                    (?:
                                        (?:post|rev|r)
                                        [\\.\\-_]?
                                        (?:x|\\*)
                                    )
                                )
                            )
                            |
                            (?:
                                (?:
                                    (?:-(?:[0-9]+))
                                    |
                                    (?:
                                        [\\.\\-_]?

                                        (?:
                                            (?:post|rev|r)
                                            (?:
                                                [\\.\\-_]?
                                                (?:[0-9]+)
                                            )?
                                        )
                                    )
                                )?
                                (?:
                                    [\\.\\-_]?

                                    (?:
                                        (?:dev)
                                        [\\.\\-_]?
                                        (?:x|\\*)
                                    )
                                )
                            )
                        )
                    )
                )
            )
        )
    )
".toList :=
  of_literals (P := fun l m => PatternText.format none l = m) (by decide +kernel)

/-! ## Parsing -/

theorem parse_tag : parse PatternText.tag = some tagTree := by
  rw [tag_text]
  exact of_literal (P := fun l => parse l = some tagTree) (by decide +kernel)

theorem parse_publicVersion : parse PatternText.publicVersion = some publicTree := by
  rw [publicVersion_text]
  exact of_literal (P := fun l => parse l = some publicTree) (by decide +kernel)

theorem parse_wildcardVersion : parse PatternText.wildcardVersion = some wildcardTree := by
  rw [wildcardVersion_text]
  exact of_literal (P := fun l => parse l = some wildcardTree) (by decide +kernel)

theorem parse_version : parse PatternText.version = some versionTree := by
  rw [PatternText.version, publicVersion_text, local_text]
  exact of_literals (P := fun l m => parse (PatternText.combine [l, m]) = some versionTree) (by decide +kernel)

theorem parse_group {p t l : PyStr} {r : Rx} (ht : t = (String.ofList l).toList)
    (h : parse (PatternText.combine [p, PatternText.versionGroup l]) = some r) :
    parse (PatternText.combine [p, PatternText.versionGroup t]) = some r := by
  rwa [ht, String.toList_ofList]

theorem parse_groups {p t u l m : PyStr} {r : Rx} (ht : t = (String.ofList l).toList) (hu : u = (String.ofList m).toList)
    (h : parse (PatternText.combine [p, PatternText.versionGroup (PatternText.combine [l, m])]) = some r) :
    parse (PatternText.combine [p, PatternText.versionGroup (PatternText.combine [t, u])]) = some r := by
  rwa [ht, hu, String.toList_ofList, String.toList_ofList]

theorem parse_wildcardSpecification : parse PatternText.wildcardSpecification =
    some (seqs [opt (operators ["==", "=", "!="]), group .version wildcardTree]) := by
  rw [PatternText.wildcardSpecification]
  exact parse_group wildcardVersion_text (by decide +kernel)

theorem parse_orderSpecification : parse PatternText.orderSpecification =
    some (seqs [operators ["<=", ">=", "<", ">"], group .version publicTree]) := by
  rw [PatternText.orderSpecification]
  exact parse_group publicVersion_text (by decide +kernel)

theorem parse_caretSpecification : parse PatternText.caretSpecification =
    some (seqs [operators ["^"], group .version publicTree]) := by
  rw [PatternText.caretSpecification]
  exact parse_group publicVersion_text (by decide +kernel)

theorem parse_tildeSpecification : parse PatternText.tildeSpecification =
    some (seqs [operators ["~=", "~"], group .version publicTree]) := by
  rw [PatternText.tildeSpecification]
  exact parse_group publicVersion_text (by decide +kernel)

theorem parse_equalSpecification : parse PatternText.equalSpecification =
    some (seqs [opt (operators ["==", "=", "!="]), group .version versionTree]) := by
  rw [PatternText.equalSpecification, PatternText.version]
  exact parse_groups publicVersion_text local_text (by decide +kernel)

/-! ## Meaning -/

/-- The two trees match the same, with the same groups, in the same order. -/
def Sim (a : Rx) (r : Re) : Prop := ∀ n st, a.run n st = r.run st

theorem Sim.seq {a b : Rx} {r q : Re} (ha : Sim a r) (hb : Sim b q) : Sim (.seq a b) (.seq r q) := fun n st => by
  rw [run, Re.run, ha n, funext (hb n)]

theorem Sim.alt {a b : Rx} {r q : Re} (ha : Sim a r) (hb : Sim b q) : Sim (.alt a b) (.alt r q) := fun n st => by
  rw [run, Re.run, ha n, hb n]

theorem Sim.opt {a : Rx} {r : Re} (ha : Sim a r) : Sim (.opt a) (.opt r) := fun n st => by
  rw [run, Re.run, ha n]

theorem Sim.star {a : Rx} {r : Re} (ha : Sim a r) : Sim (.star a) (.star r) := fun n st => by
  rw [run, Re.run, funext (ha n)]

theorem Sim.plus {a : Rx} {r : Re} (ha : Sim a r) : Sim (.plus a) (.plus r) := fun n st => by
  rw [run, Re.plus, Re.run, funext (ha n)]
  rfl

theorem Sim.group {a : Rx} {r : Re} (g : Grp) (ha : Sim a r) : Sim (.group g a) (.group g r) := fun n st => by
  rw [run, Re.run, ha n]

theorem Sim.cls {l : List (Char × Char)} {p : Char → Bool} (h : ∀ c, classHas l c = p c) : Sim (.cls l) (.chr p) := fun n st => by
  rw [run, Re.run]
  cases st.1 with
  | nil => rfl
  | cons c s => simp only [h c]

theorem Sim.seqs {l : List Rx} {m : List Re} (h : List.Forall₂ Sim l m) : Sim (seqs l) (Re.seqs m) := by
  induction h with
  | nil => exact fun n st => rfl
  | @cons a r l m ha hl ih =>
    cases hl with
    | nil => exact ha
    | cons hb hl => exact ha.seq ih

theorem Sim.alts {l : List Rx} {m : List Re} (hne : l ≠ []) (h : List.Forall₂ Sim l m) : Sim (alts l) (Re.alts m) := by
  induction h with
  | nil => exact absurd rfl hne
  | @cons a r l m ha hl ih =>
    cases hl with
    | nil => exact ha
    | cons hb hl => exact ha.alt (ih (by simp))

/-! ### characters -/

theorem ofNat_toNat_of_lt {n : Nat} (h : n < 128) : (Char.ofNat n).toNat = n :=
  by
  have h : n.isValidChar := Or.inl (by omega)
  simp [Char.ofNat, h, Char.ofNatAux, Char.toNat]

/-- The lower case of a character is the character or a letter from a to z. -/
theorem lower_cases (c : Char) : Re.lower c = c ∨ ('a' ≤ Re.lower c ∧ Re.lower c ≤ 'z') := by
  unfold Re.lower
  split
  · right; decide
  split
  · right; decide
  split
  case isTrue h =>
    right
    have h1 : 'A'.toNat ≤ c.toNat := h.1
    have h2 : c.toNat ≤ 'Z'.toNat := h.2
    have e : (Char.ofNat (c.toNat + 32)).toNat = c.toNat + 32 := ofNat_toNat_of_lt (by simp at h2; omega)
    constructor
    · show 'a'.toNat ≤ (Char.ofNat (c.toNat + 32)).toNat
      rw [e]; simp at h1 ⊢; omega
    · show (Char.ofNat (c.toNat + 32)).toNat ≤ 'z'.toNat
      rw [e]; simp at h2 ⊢; omega
  · exact Or.inl rfl

/-- Characters that are not letters from A to Z, nor İ, nor the Kelvin sign, are their own lower case. -/
theorem lower_self {c : Char} (h : c.toNat < 65 ∨ (90 < c.toNat ∧ c.toNat < 0x130) ∨ c = '\u0131' ∨ c = '\u017f') : Re.lower c = c := by
  unfold Re.lower
  rw [if_neg, if_neg, if_neg]
  · rintro ⟨h1, h2⟩
    have h1 : 'A'.toNat ≤ c.toNat := h1
    have h2 : c.toNat ≤ 'Z'.toNat := h2
    simp at h1 h2
    rcases h with h | h | rfl | rfl
    · omega
    · omega
    · revert h2; decide
    · revert h2; decide
  · rintro rfl
    revert h; decide
  · rintro rfl
    revert h; decide

/-- A character that is no letter from a to z, but its own lower case, is the lower case of itself only. -/
theorem lower_eq_iff {l : Char} (hl : Re.lower l = l) (hn : ¬ ('a' ≤ l ∧ l ≤ 'z')) (c : Char) : Re.lower c = l ↔ c = l := by
  constructor
  · intro h
    rcases lower_cases c with e | e
    · exact e.symm.trans h
    · rw [h] at e; exact absurd e hn
  · rintro rfl; exact hl

theorem chars_one (c : Char) : chars (c, c) = [c] := by
  simp [chars]

theorem mem_chars {a b c : Char} (hb : b.toNat < 128) : c ∈ chars (a, b) ↔ a ≤ c ∧ c ≤ b := by
  unfold chars
  simp only [List.mem_map, List.mem_range]
  constructor
  · rintro ⟨i, hi, rfl⟩
    have e := ofNat_toNat_of_lt (n := a.toNat + i) (by omega)
    exact ⟨show a.toNat ≤ (Char.ofNat (a.toNat + i)).toNat by rw [e]; omega,
      show (Char.ofNat (a.toNat + i)).toNat ≤ b.toNat by rw [e]; omega⟩
  · rintro ⟨h1, h2⟩
    have h1 : a.toNat ≤ c.toNat := h1
    have h2 : c.toNat ≤ b.toNat := h2
    exact ⟨c.toNat - a.toNat, by omega, by rw [Nat.add_sub_cancel' h1, Char.ofNat_toNat]⟩

/-- A class has a character if its lower case is the lower case of a character of a range, or an extra case of one. -/
theorem classHas_iff (l : List (Char × Char)) (c : Char) : classHas l c = true ↔
    ∃ r ∈ l, ∃ i ∈ chars r, Re.lower c = Re.lower i ∨ Re.lower c ∈ extraCases (Re.lower i) := by
  simp [classHas]

theorem extraCases_nil {c : Char} (h1 : c ≠ 'i') (h2 : c ≠ 's') (h3 : c ≠ '\u0131') (h4 : c ≠ '\u017f') : extraCases c = [] := by
  simp [extraCases, h1, h2, h3, h4]

/-- Ranges without letters match what they contain. -/
theorem classHas_plain {l : List (Char × Char)} (h : ∀ r ∈ l, r.2.toNat < 65 ∨ (90 < r.1.toNat ∧ r.2.toNat < 97) ∨ (122 < r.1.toNat ∧ r.2.toNat < 128)) (c : Char) :
    classHas l c = true ↔ ∃ r ∈ l, r.1 ≤ c ∧ c ≤ r.2 := by
  rw [classHas_iff]
  have key : ∀ r ∈ l, ∀ i : Char, i ∈ chars r ↔ r.1 ≤ i ∧ i ≤ r.2 := fun r hr i =>
    mem_chars (a := r.1) (b := r.2) (by have := h r hr; omega)
  have plain : ∀ r ∈ l, ∀ i ∈ chars r, Re.lower i = i ∧ ¬ ('a' ≤ i ∧ i ≤ 'z') ∧ extraCases i = [] := by
    intro r hr i hi
    have hi := (key r hr i).1 hi
    have h1 : r.1.toNat ≤ i.toNat := hi.1
    have h2 : i.toNat ≤ r.2.toNat := hi.2
    have hn : i.toNat < 65 ∨ (90 < i.toNat ∧ i.toNat < 97) ∨ (122 < i.toNat ∧ i.toNat < 128) := by have := h r hr; omega
    refine ⟨lower_self (by omega), fun hz => ?_, extraCases_nil ?_ ?_ ?_ ?_⟩
    · have h1 : 'a'.toNat ≤ i.toNat := hz.1
      have h2 : i.toNat ≤ 'z'.toNat := hz.2
      simp at h1 h2
      omega
    all_goals
      rintro rfl
      simp at hn
  constructor
  · rintro ⟨r, hr, i, hi, hc⟩
    obtain ⟨p1, p2, p3⟩ := plain r hr i hi
    rw [p1, p3] at hc
    have hc : Re.lower c = i := by simpa using hc
    rw [(lower_eq_iff p1 p2 c).1 hc]
    exact ⟨r, hr, (key r hr i).1 hi⟩
  · rintro ⟨r, hr, hc⟩
    exact ⟨r, hr, c, (key r hr c).2 hc, Or.inl rfl⟩

theorem caseless_iff (c : Char) : Caseless c ↔
    c.toNat < 65 ∨ (90 < c.toNat ∧ c.toNat < 97) ∨ (122 < c.toNat ∧ c.toNat < 128) := by
  have h1 : 'a' ≤ c ↔ 97 ≤ c.toNat := Iff.rfl
  have h2 : c ≤ 'z' ↔ c.toNat ≤ 122 := Iff.rfl
  have h3 : 'A' ≤ c ↔ 65 ≤ c.toNat := Iff.rfl
  have h4 : c ≤ 'Z' ↔ c.toNat ≤ 90 := Iff.rfl
  rw [Caseless, h1, h2, h3, h4]
  omega

/-- A caseless literal matches itself only. -/
theorem literal_has {c : Char} (h : Caseless c) (d : Char) : classHas [(c, c)] d = true ↔ d = c := by
  rw [classHas_plain (by simpa using (caseless_iff c).1 h)]
  simp only [List.mem_singleton, exists_eq_left]
  exact ⟨fun h => Char.le_antisymm h.2 h.1, fun h => by rw [h]; exact ⟨Char.le_refl _, Char.le_refl _⟩⟩

theorem Sim.literal {c : Char} (h : Caseless c) : Sim (literal c) (Re.lit c) :=
  Sim.cls fun d => by rw [Bool.eq_iff_iff, literal_has h, decide_eq_true_eq]

theorem Sim.separator : Sim separator Pattern.separator := Sim.cls fun c => by
  rw [Bool.eq_iff_iff, classHas_plain (by decide)]
  simp only [List.mem_cons, List.not_mem_nil, or_false, exists_eq_or_imp, exists_eq_left, Re.isSeparator, Bool.or_eq_true,
    decide_eq_true_eq, or_assoc]
  have key : ∀ d : Char, (d ≤ c ∧ c ≤ d) ↔ c = d := fun d =>
    ⟨fun h => Char.le_antisymm h.2 h.1, fun h => by rw [h]; exact ⟨Char.le_refl _, Char.le_refl _⟩⟩
  rw [key, key, key]

theorem Sim.digit : Sim digit Pattern.digit := Sim.cls fun c => by
  rw [Bool.eq_iff_iff, classHas_plain (by decide)]
  simp [Re.isDigit]

/-- The letters from a to z are their own lower case. -/
theorem lower_letter {l : Char} (hl : 'a' ≤ l ∧ l ≤ 'z') : Re.lower l = l := by
  have h1 : 'a'.toNat ≤ l.toNat := hl.1
  have h2 : l.toNat ≤ 'z'.toNat := hl.2
  simp at h1 h2
  exact lower_self (by omega)

theorem lower_dotless (c : Char) : Re.lower c = '\u0131' ↔ c = '\u0131' := lower_eq_iff (lower_self (by simp)) (by decide) c
theorem lower_long (c : Char) : Re.lower c = '\u017f' ↔ c = '\u017f' := lower_eq_iff (lower_self (by simp)) (by decide) c

theorem Sim.letter {l : Char} (hl : 'a' ≤ l ∧ l ≤ 'z') : Sim (Rx.literal l) (Re.letter l) := Sim.cls fun c => by
  rw [Bool.eq_iff_iff, classHas_iff]
  simp only [List.mem_singleton, exists_eq_left, chars_one, lower_letter hl, Bool.or_eq_true, Bool.and_eq_true, decide_eq_true_eq]
  by_cases hi : l = 'i'
  · subst hi
    simp [extraCases, lower_dotless]
  by_cases hs : l = 's'
  · subst hs
    simp [extraCases, lower_long]
  · rw [extraCases_nil hi hs (by rintro rfl; revert hl; decide) (by rintro rfl; revert hl; decide)]
    simp [hi, hs]

theorem alpha_iff (c : Char) : (∃ i ∈ chars ('a', 'z'), Re.lower c = Re.lower i ∨ Re.lower c ∈ extraCases (Re.lower i)) ↔
    Re.isAlpha c = true := by
  simp only [mem_chars (a := 'a') (b := 'z') (by decide), Re.isAlpha, Bool.or_eq_true, decide_eq_true_eq]
  constructor
  · rintro ⟨i, hi, h⟩
    rw [lower_letter hi] at h
    rcases h with h | h
    · rw [h]; exact Or.inl (Or.inl hi)
    · unfold extraCases at h
      split at h
      · exact Or.inl (Or.inr ((lower_dotless c).1 (by simpa using h)))
      split at h
      · exact Or.inr ((lower_long c).1 (by simpa using h))
      split at h
      case isTrue e => subst e; exact absurd hi (by decide)
      split at h
      case isTrue e => subst e; exact absurd hi (by decide)
      · simp at h
  · rintro ((h | h) | h)
    · exact ⟨Re.lower c, h, Or.inl (lower_letter h).symm⟩
    · subst h; exact ⟨'i', by decide, by decide⟩
    · subst h; exact ⟨'s', by decide, by decide⟩

theorem Sim.alpha : Sim alpha Pattern.alpha := Sim.cls fun c => by
  rw [Bool.eq_iff_iff, classHas_iff]
  simpa only [List.mem_singleton, exists_eq_left] using alpha_iff c

theorem Sim.alphaDigit : Sim alphaDigit Pattern.alphaDigit := Sim.cls fun c => by
  rw [Bool.eq_iff_iff, classHas_iff]
  have hd := classHas_plain (l := [('0', '9')]) (by decide) c
  rw [classHas_iff] at hd
  simp only [List.mem_cons, List.not_mem_nil, or_false, exists_eq_or_imp, exists_eq_left] at hd ⊢
  rw [alpha_iff, hd, Bool.or_eq_true]
  simp [Re.isDigit]

/-! ### patterns -/

theorem Sim.lits {s : String} (h : ∀ c ∈ s.toList, Caseless c) : Sim (literals s) (Re.lits s) := by
  refine Sim.seqs ?_
  rw [List.forall₂_map_left_iff, List.forall₂_map_right_iff, List.forall₂_same]
  exact fun c hc => Sim.literal (h c hc)

theorem Sim.word {s : String} (h : ∀ c ∈ s.toList, 'a' ≤ c ∧ c ≤ 'z') : Sim (literals s) (Re.word s) := by
  refine Sim.seqs ?_
  rw [List.forall₂_map_left_iff, List.forall₂_map_right_iff, List.forall₂_same]
  exact fun c hc => Sim.letter (h c hc)

theorem Sim.phases {l : List String} (hne : l ≠ []) (h : ∀ s ∈ l, ∀ c ∈ s.toList, 'a' ≤ c ∧ c ≤ 'z') :
    Sim (words l) (Pattern.phases l) := by
  refine Sim.alts (by simpa using hne) ?_
  rw [List.forall₂_map_left_iff, List.forall₂_map_right_iff, List.forall₂_same]
  exact fun s hs => Sim.word (h s hs)

theorem Sim.operators {l : List String} (hne : l ≠ []) (h : ∀ s ∈ l, ∀ c ∈ s.toList, Caseless c) :
    Sim (operators l) (.group .operator (Re.alts (l.map Re.lits))) := by
  refine Sim.group _ (Sim.alts (by simpa using hne) ?_)
  rw [List.forall₂_map_left_iff, List.forall₂_map_right_iff, List.forall₂_same]
  exact fun s hs => Sim.lits (h s hs)

theorem Sim.digits : Sim digits Pattern.digits := Sim.digit.plus

theorem Sim.two {a b : Rx} {r q : Re} (ha : Sim a r) (hb : Sim b q) : Sim (Rx.seqs [a, b]) (Re.seqs [r, q]) := ha.seq hb

theorem Sim.three {a b c : Rx} {r q p : Re} (ha : Sim a r) (hb : Sim b q) (hc : Sim c p) :
    Sim (Rx.seqs [a, b, c]) (Re.seqs [r, q, p]) := ha.seq (hb.seq hc)

theorem Sim.separated {a : Rx} {r : Re} (ha : Sim a r) : Sim (separated a) (Re.seqs [.opt Pattern.separator, r]) :=
  Sim.two Sim.separator.opt ha

theorem Sim.numbers : Sim numbers Pattern.releaseNumbers :=
  Sim.two Sim.digits (Sim.two (Sim.literal (by decide)) Sim.digits).star

theorem Sim.pre : Sim (words Pattern.prePhases) (Pattern.phases Pattern.prePhases) := Sim.phases (by decide) (by decide)
theorem Sim.post : Sim (words Pattern.postPhases) (Pattern.phases Pattern.postPhases) := Sim.phases (by decide) (by decide)
theorem Sim.dev : Sim (words Pattern.devPhases) (Pattern.phases Pattern.devPhases) := Sim.phases (by decide) (by decide)

theorem Sim.v : Sim (Rx.literal 'v') (Re.letter 'v') := Sim.letter (by decide)

theorem Sim.publicItems : ∃ l, Pattern.publicVersion = Re.seqs l ∧ l ≠ [] ∧ List.Forall₂ Sim publicItems l := by
  refine ⟨_, rfl, by simp, ?_⟩
  have tag : ∀ {p : List String} {g h k : Grp}, Sim (words p) (Pattern.phases p) →
      Sim (.separated (.group g (.seqs [.group h (words p), .opt (.separated (.group k Rx.digits))])))
        (Re.seqs [.opt Pattern.separator,
          .group g (Re.seqs [.group h (Pattern.phases p), .opt (Re.seqs [.opt Pattern.separator, .group k Pattern.digits])])]) :=
    fun hp => Sim.separated (Sim.group _ (Sim.two (Sim.group _ hp) (Sim.separated (Sim.group _ Sim.digits)).opt))
  exact .cons Sim.v.opt (.cons (Sim.two (Sim.group _ Sim.digits) (Sim.literal (by decide))).opt
    (.cons (Sim.group _ Sim.numbers) (.cons (tag Sim.pre).opt
      (.cons (Sim.alt (Sim.two (Sim.literal (by decide)) (Sim.group _ Sim.digits)) (tag Sim.post)).opt
        (.cons (tag Sim.dev).opt .nil)))))

theorem Sim.publicVersion : Sim publicTree Pattern.publicVersion := by
  obtain ⟨l, e, -, h⟩ := Sim.publicItems
  rw [e]
  exact Sim.seqs h

theorem Sim.local : Sim localItem Pattern.local_ :=
  (Sim.two (Sim.literal (by decide))
    (Sim.group _ (Sim.two Sim.alphaDigit.plus (Sim.two Sim.separator Sim.alphaDigit.plus).star))).opt

/-- Sequences are associative. -/
theorem run_seqs_append {l : List Re} (hl : l ≠ []) (r : Re) : ∀ st, (Re.seqs (l ++ [r])).run st = (Re.seq (Re.seqs l) r).run st := by
  induction l with
  | nil => exact absurd rfl hl
  | cons a l ih =>
    cases l with
    | nil => exact fun st => rfl
    | cons b l =>
      intro st
      have ih := ih (by simp)
      show (Re.seq a (Re.seqs (b :: l ++ [r]))).run st = (Re.seq (Re.seq a (Re.seqs (b :: l))) r).run st
      rw [Re.run, Re.run, Re.run, funext ih, List.flatMap_assoc]
      rfl

theorem Sim.version : Sim versionTree Pattern.version := by
  obtain ⟨l, e, hne, h⟩ := Sim.publicItems
  intro n st
  rw [Pattern.version, e, ← run_seqs_append hne]
  exact Sim.seqs (List.rel_append h (.cons Sim.local .nil)) n st

theorem Sim.wildcard : Sim wildcard Pattern.wildcard := Sim.alt (Sim.letter (by decide)) (Sim.literal (by decide))

theorem Sim.phaseWildcard {p : List String} (hp : Sim (words p) (Pattern.phases p)) :
    Sim (phaseWildcard p) (Re.seqs [.opt Pattern.separator, Re.seqs [Pattern.phases p, .opt Pattern.separator, Pattern.wildcard]]) :=
  Sim.separated (Sim.three hp Sim.separator.opt Sim.wildcard)

theorem Sim.phaseNumber {p : List String} (hp : Sim (words p) (Pattern.phases p)) :
    Sim (phaseNumber p) (Re.seqs [.opt Pattern.separator,
      Re.seqs [Pattern.phases p, .opt (Re.seqs [.opt Pattern.separator, Pattern.digits])]]) :=
  Sim.separated (Sim.two hp (Sim.separated Sim.digits).opt)

theorem Sim.wildcardVersion : Sim wildcardTree Pattern.wildcardVersion :=
  Sim.three Sim.v.opt (Sim.two Sim.digits (Sim.literal (by decide))).opt
    (Sim.alt Sim.wildcard (Sim.two Sim.numbers
      (Sim.alt (Sim.two (Sim.literal (by decide)) Sim.wildcard)
        (Sim.alt (Sim.phaseWildcard Sim.pre)
          (Sim.two (Sim.phaseNumber Sim.pre).opt
            (Sim.alt (Sim.alt (Sim.two (Sim.literal (by decide)) Sim.wildcard) (Sim.phaseWildcard Sim.post))
              (Sim.two (Sim.alt (Sim.two (Sim.literal (by decide)) Sim.digits) (Sim.phaseNumber Sim.post)).opt
                (Sim.phaseWildcard Sim.dev))))))))

theorem Sim.fullmatch {a : Rx} {r : Re} (h : Sim a r) (s : PyStr) : a.fullmatch s = r.fullmatch s := by
  rw [Rx.fullmatch, Re.fullmatch, h]

/-- `$` does not change which matches reach the end. -/
theorem find_finish (n : Nat) (l : List Re.State) :
    (l.flatMap (run n .finish)).find? (fun st => st.1.isEmpty) = l.find? (fun st => st.1.isEmpty) := by
  induction l with
  | nil => rfl
  | cons st l ih =>
    rw [List.flatMap_cons, List.find?_append, ih]
    obtain ⟨s, caps⟩ := st
    cases s with
    | nil => simp [run]
    | cons c s =>
      simp only [run, List.find?_cons, List.isEmpty_cons]
      split <;> simp

theorem tag_fullmatch (s : PyStr) : tagTree.fullmatch s = Pattern.tag.fullmatch s := by
  have h : Sim (Rx.seqs [.group .phase (.plus Rx.alpha), .opt (.separated (.group .value Rx.digits))]) Pattern.tag :=
    Sim.two (Sim.group _ Sim.alpha.plus) (Sim.separated (Sim.group _ Sim.digits)).opt
  have e : tagTree.run s.length (s, []) = (Pattern.tag.run (s, [])).flatMap (run s.length .finish) := by
    rw [← h s.length]
    simp [tagTree, Rx.seqs, run, List.flatMap_assoc]
  rw [Rx.fullmatch, e, find_finish, Re.fullmatch]

end Rx
end Verif
