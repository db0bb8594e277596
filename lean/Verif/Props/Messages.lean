import Verif.Proofs.LimitSpecifiers
import Verif.Proofs.Messages
import Verif.Props.Parsing
/-!
# The messages of the exceptions (C115)
-/

namespace Verif
open scoped Verif

/-- C115. Without the messages, the parsers are those of the other properties. -/
theorem C115_same (s : PyStr) (cls : TagClass) :
    Loud.quiet (Loud.parseVersion s) = Version.parse s ∧ Loud.quiet (Loud.parseSpecifier s) = Specifier.parse s ∧
      Loud.quiet (Loud.parseTag cls s) = Tag.parse cls s :=
  ⟨Loud.quiet_version s, Loud.quiet_specifier s, Loud.quiet_tag cls s⟩

example : Loud.parseVersion "1.0b2".toList = .ok (exVersion [1, 0] (some ⟨"beta".toList, 2⟩)) ∧
    Loud.quiet (Loud.parseVersion "1.0B2".toList) = .error .valueError := by decide +kernel

/-- C115. So are the constructors and `version`. -/
theorem C115_same_made (cls : TagClass) (phase : PyStr) (n : Int) (min max : Option Version) (includeMin includeMax : Bool) (i : Item)
    (items : List Item) :
    Loud.quiet (Loud.createTag cls phase n) = Tag.create cls phase n ∧
      Loud.quiet (Loud.mkRange min max includeMin includeMax) = Item.mkRange min max includeMin includeMax ∧
      Loud.quiet (Loud.version i) = i.version ∧ Loud.quiet (Loud.mkUnion items) = VSet.mkUnion items := by
  refine ⟨Loud.quiet_createTag cls phase n, ?_, ?_, ?_⟩
  · unfold Loud.mkRange Item.mkRange
    dsimp only
    split
    · rfl
    · split
      · rfl
      · split <;> rfl
  · cases i with
    | point v => rfl
    | range x =>
      unfold Loud.version Item.version Loud.versionUnchecked Item.versionUnchecked
      dsimp only
      split
      · cases (Item.range x).min with
        | some v => rfl
        | none => cases (Item.range x).max <;> rfl
      · rfl
  · unfold Loud.mkUnion VSet.mkUnion
    split
    · rfl
    · split <;> rfl

example : Loud.quiet (Loud.mkRange (some (exVersion [2])) (some (exVersion [1])) true true) = .error .valueError ∧
    Loud.quiet (Loud.version (exPoint [3])) = .ok (exVersion [3]) := by decide +kernel

/-- C115. `parse_version` shows the whole string if it is not in the grammar, and otherwise the first phase (pre, post, dev) that
is not in lower case, as it is written, with the class of the tag. -/
theorem C115_version (s : PyStr) (r : Raised) : Loud.parseVersion s = .error r ↔ VersionRaises s r := Loud.version_raises s r

example : Loud.parseVersion "1..0".toList = .error ⟨.parseVersionError, "can not parse `1..0` to `Version`".toList⟩ ∧
    Loud.parseVersion "1.0rc1.Post2.DEV3".toList = .error ⟨.valueError, "phase `Post` is not allowed in `PostTag`".toList⟩ ∧
    Loud.parseVersion "1A1".toList = .error ⟨.valueError, "phase `A` is not allowed in `PreTag`".toList⟩ := by decide +kernel

/-- C115. `parse_specifier` on a string without commas and pipes: what is shown is without the whitespace. -/
theorem C115_single (s : PyStr) (h1 : ',' ∉ s) (h2 : '|' ∉ s) (r : Raised) :
    Loud.parseSpecifier s = .error r ↔ SingleRaises (s.filter (fun c => !isSpace c)) r := by
  rw [Loud.parse_plainish h1 h2]
  exact Loud.single_raises _ r

example : Loud.parseSpecifier "> 1.*".toList = .error ⟨.parseSpecificationError, "can not parse `>1.*` to `specification`".toList⟩ ∧
    Loud.parseSpecifier "!= 2.X".toList = .error ⟨.parseVersionError, "can not parse `2.X` to `Version`".toList⟩ ∧
    Loud.parseSpecifier "~= 1".toList = .error ⟨.valueError, "`~=` can not be used with with a single version segment".toList⟩ ∧
    Loud.parseSpecifier "~= 1Dev".toList = .error ⟨.valueError, "phase `Dev` is not allowed in `DevTag`".toList⟩ := ⟨by rfl, by rfl, by rfl, by rfl⟩

/-- C115. Several parts, joined by pipes: the message is that of the first part that fails. -/
theorem C115_pipes (a : PyStr) (l : List (Bool × PyStr)) (ha : '|' ∉ a) (hl : ∀ x ∈ l, '|' ∉ x.2)
    (hb : ∀ x ∈ l.dropLast, ∃ c ∈ x.2, isSpace c = false) (r : Raised) :
    Loud.parseSpecifier (pipes a l) = .error r ↔
      ∃ l1 w l2, a :: l.map (·.2) = l1 ++ w :: l2 ∧ (∀ y ∈ l1, ∃ x, Loud.parseSpecifier y = .ok x) ∧ Loud.parseSpecifier w = .error r := by
  rw [Loud.parse_pipes a l ha hl hb, ← Loud.mapAll_error_iff]
  cases hm : Loud.mapAll Loud.parseSpecifier (a :: l.map (·.2)) with
  | error e' => simp [Except.bind]
  | ok xs =>
    obtain ⟨y, hy⟩ := Loud.anyOf_ok xs
    simp [Except.bind, hy]

example : Loud.parseSpecifier "1 | 2.X || >".toList = .error ⟨.parseVersionError, "can not parse `2.X` to `Version`".toList⟩ ∧
    Loud.parseSpecifier "1 || > | 2.X".toList = .error ⟨.parseSpecificationError, "can not parse `>` to `specification`".toList⟩ := ⟨by rfl, by rfl⟩

/-- C115. Several parts, joined by commas: the message is that of the first part that fails. -/
theorem C115_commas (a : PyStr) (l : List PyStr) (ha : ',' ∉ a ∧ '|' ∉ a) (hl : ∀ x ∈ l, ',' ∉ x ∧ '|' ∉ x) (r : Raised) :
    Loud.parseSpecifier (a ++ (l.map (',' :: ·)).flatten) = .error r ↔
      ∃ l1 w l2, a :: l = l1 ++ w :: l2 ∧ (∀ y ∈ l1, ∃ x, Loud.parseSpecifier y = .ok x) ∧ Loud.parseSpecifier w = .error r := by
  rw [Loud.parse_commas ha hl, ← Loud.mapAll_error_iff]
  cases hm : Loud.mapAll Loud.parseSpecifier (a :: l) with
  | error e' => simp [Except.bind]
  | ok xs =>
    obtain ⟨y, hy⟩ := Loud.allOf_ok xs
    simp [Except.bind, hy]

example : Loud.parseSpecifier ">= 1, < 2 2, != x y".toList = .error ⟨.parseSpecificationError, "can not parse `!=xy` to `specification`".toList⟩ ∧
    Loud.parseSpecifier ">= 1,".toList = .error ⟨.parseSpecificationError, "can not parse `` to `specification`".toList⟩ := ⟨by rfl, by rfl⟩

/-! ### the part that is shown -/

theorem splitAt_head (p : Char → Bool) (s : PyStr) : ∃ w ws, splitAt p s = w :: ws ∧ w <+: s ∧ ∀ x ∈ ws, x <:+: s := by
  induction s with
  | nil => exact ⟨[], [], rfl, List.nil_prefix, by simp⟩
  | cons c s ih =>
    obtain ⟨w, ws, h1, h2, h3⟩ := ih
    rw [splitAt]
    by_cases hc : p c = true
    · refine ⟨[], splitAt p s, by simp [hc], List.nil_prefix, ?_⟩
      intro x hx
      rw [h1] at hx
      rcases List.mem_cons.1 hx with rfl | hx
      · exact List.infix_cons h2.isInfix
      · exact List.infix_cons (h3 x hx)
    · refine ⟨c :: w, ws, by simp [hc, h1], (List.prefix_cons_inj c).2 h2, ?_⟩
      exact fun x hx => List.infix_cons (h3 x hx)

theorem splitPipes_head (s : PyStr) : ∃ w ws, splitPipes s = w :: ws ∧ w <+: s ∧ ∀ x ∈ ws, x <:+: s := by
  unfold splitPipes
  induction s using replacePipes.induct with
  | case1 s ih =>
    obtain ⟨w, ws, h1, h2, h3⟩ := ih
    rw [replacePipes, splitAt]
    refine ⟨[], _, by simp; rfl, List.nil_prefix, ?_⟩
    intro x hx
    rw [h1] at hx
    rcases List.mem_cons.1 hx with rfl | hx
    · exact List.infix_cons (List.infix_cons h2.isInfix)
    · exact List.infix_cons (List.infix_cons (h3 x hx))
  | case2 c s hn ih =>
    obtain ⟨w, ws, h1, h2, h3⟩ := ih
    rw [replacePipes.eq_2 c s hn, splitAt]
    by_cases hc : c = '|'
    · refine ⟨[], _, by simp [hc]; rfl, List.nil_prefix, ?_⟩
      intro x hx
      rw [h1] at hx
      rcases List.mem_cons.1 hx with rfl | hx
      · exact List.infix_cons h2.isInfix
      · exact List.infix_cons (h3 x hx)
    · refine ⟨c :: w, ws, by simp [hc, h1], (List.prefix_cons_inj c).2 h2, ?_⟩
      exact fun x hx => List.infix_cons (h3 x hx)
  | case3 => exact ⟨[], [], rfl, List.nil_prefix, by simp⟩

theorem splitAt_infix {p : Char → Bool} {s w : PyStr} (h : w ∈ splitAt p s) : w <:+: s := by
  obtain ⟨x, xs, h1, h2, h3⟩ := splitAt_head p s
  rw [h1] at h
  rcases List.mem_cons.1 h with rfl | h
  · exact h2.isInfix
  · exact h3 _ h

theorem splitPipes_infix {s w : PyStr} (h : w ∈ splitPipes s) : w <:+: s := by
  obtain ⟨x, xs, h1, h2, h3⟩ := splitPipes_head s
  rw [h1] at h
  rcases List.mem_cons.1 h with rfl | h
  · exact h2.isInfix
  · exact h3 _ h

/-- C115. Whatever the string, the exception is that of a piece of it (without the whitespace) that has no commas and pipes. So the
messages show pieces only, never the whole of a longer specifier, and not with the whitespace. -/
theorem C115_piece (s : PyStr) (r : Raised) (h : Loud.parseSpecifier s = .error r) :
    ∃ w, w <:+: s.filter (fun c => !isSpace c) ∧ ',' ∉ w ∧ '|' ∉ w ∧ SingleRaises w r := by
  unfold Loud.parseSpecifier Loud.parseAny at h
  rw [clearWhitespace_eq] at h
  have h1 : Loud.mapAll Loud.parseAll (splitPipes (s.filter (fun c => !isSpace c))) = .error r := by
    cases hm : Loud.mapAll Loud.parseAll (splitPipes (s.filter (fun c => !isSpace c))) with
    | error e' =>
      rw [hm] at h
      have h : (Except.error e' : Loud.Result Specifier) = .error r := h
      cases h
      rfl
    | ok xs =>
      rw [hm] at h
      obtain ⟨y, hy⟩ := Loud.anyOf_ok xs
      have h : Loud.anyOf xs = .error r := h
      rw [hy] at h
      cases h
  obtain ⟨l1, a, l2, e1, -, h2⟩ := (Loud.mapAll_error_iff _ _ _).1 h1
  have ha : a ∈ splitPipes (s.filter (fun c => !isSpace c)) := by rw [e1]; simp
  unfold Loud.parseAll at h2
  have h3 : Loud.mapAll Loud.parseSingle (splitComma a) = .error r := by
    cases hm : Loud.mapAll Loud.parseSingle (splitComma a) with
    | error e' =>
      rw [hm] at h2
      have h2 : (Except.error e' : Loud.Result Specifier) = .error r := h2
      cases h2
      rfl
    | ok xs =>
      rw [hm] at h2
      obtain ⟨y, hy⟩ := Loud.allOf_ok xs
      have h2 : Loud.allOf xs = .error r := h2
      rw [hy] at h2
      cases h2
  obtain ⟨m1, w, m2, e2, -, h4⟩ := (Loud.mapAll_error_iff _ _ _).1 h3
  have hw : w ∈ splitComma a := by rw [e2]; simp
  have i1 := splitPipes_infix ha
  have i2 : w <:+: a := splitAt_infix hw
  refine ⟨w, i2.trans i1, ?_, ?_, (Loud.single_raises w r).1 h4⟩
  · intro hc
    have := splitAt_none hw _ hc
    simp at this
  · intro hc
    have := splitAt_none (p := (· = '|')) ha _ (i2.subset hc)
    simp at this

example : Loud.parseSpecifier "1 | >= 2, < 3 . x . 4 || 5".toList =
    .error ⟨.parseSpecificationError, "can not parse `<3.x.4` to `specification`".toList⟩ := by rfl

/-! ### the message tells the exception -/

theorem append_suffix {a b c d : PyStr} (h : a ++ c = b ++ d) (hl : c.length = d.length) : a = b ∧ c = d := List.append_inj' h hl

theorem parseText_inj {s t w : PyStr} (h : parseText s w = parseText t w) : s = t := by
  unfold parseText at h
  exact List.append_cancel_right (List.append_cancel_left h)

theorem parseText_suffix (s a b : PyStr) : parseText s (a ++ b) = ("can not parse `".toList ++ (s ++ ("` to `".toList ++ a))) ++ (b ++ "`".toList) := by
  unfold parseText
  generalize "can not parse `".toList = x
  generalize "` to `".toList = y
  generalize "`".toList = z
  simp only [List.append_assoc]

theorem parseText_kinds (s t : PyStr) : parseText s "specification".toList ≠ parseText t "Version".toList := by
  intro h
  have e1 := parseText_suffix s "specifica".toList "tion".toList
  have e2 := parseText_suffix t "Ver".toList "sion".toList
  have e := (e1.symm.trans h).trans e2
  exact absurd (append_suffix e rfl).2 (by decide)

theorem parseText_start (s w : PyStr) : ∃ x, parseText s w = 'c' :: x := ⟨_, rfl⟩

theorem phaseText_start (s w : PyStr) : ∃ x, phaseText s w = 'p' :: x := ⟨_, rfl⟩

theorem raises_kinds {w : PyStr} {r : Raised} (h : SingleRaises w r) :
    (r = ⟨.parseSpecificationError, parseText w "specification".toList⟩) ∨
    (∃ x, x <:+ w ∧ r = ⟨.parseVersionError, parseText x "Version".toList⟩) ∨
    (∃ ph name, r = ⟨.valueError, phaseText ph name⟩) ∨
    r = ⟨.valueError, "`~=` can not be used with with a single version segment".toList⟩ := by
  cases h with
  | form h => exact .inl rfl
  | upper ho hp hz => exact .inr (.inl ⟨_, List.suffix_append _ _, rfl⟩)
  | compare ho hp hg hl hu => exact .inr (.inr (.inl ⟨_, _, rfl⟩))
  | equal ho hp hg hu => exact .inr (.inr (.inl ⟨_, _, rfl⟩))
  | wildcard ho hp hg hz hc hu => exact .inr (.inr (.inl ⟨_, _, rfl⟩))
  | tilde => exact .inr (.inr (.inr rfl))

/-- C115. Two failures with the same message are of the same class; and if the class is `ParseSpecificationError`, the message shows
one and the same piece of both strings. -/
theorem C115_tells (s s' : PyStr) (r r' : Raised) (h : Loud.parseSpecifier s = .error r) (h' : Loud.parseSpecifier s' = .error r')
    (he : r.message = r'.message) : r = r' ∧ (r.err = .parseSpecificationError →
      ∃ w, w <:+: s.filter (fun c => !isSpace c) ∧ w <:+: s'.filter (fun c => !isSpace c) ∧ ¬ SingleForm w ∧
        r.message = parseText w "specification".toList) := by
  obtain ⟨w, i1, -, -, h1⟩ := C115_piece s r h
  obtain ⟨w', i2, -, -, h2⟩ := C115_piece s' r' h'
  have no : ∀ {e m}, SingleRaises w ⟨e, m⟩ → e = .parseSpecificationError → ¬ SingleForm w := by
    intro e m hr hh
    subst hh
    cases hr with
    | form h => exact h
  rcases raises_kinds h1 with rfl | ⟨x, -, rfl⟩ | ⟨ph, n, rfl⟩ | rfl <;> rcases raises_kinds h2 with rfl | ⟨x', -, rfl⟩ | ⟨ph', n', rfl⟩ | rfl
  · have := parseText_inj he
    subst this
    exact ⟨rfl, fun _ => ⟨w, i1, i2, no h1 rfl, rfl⟩⟩
  · exact absurd he (parseText_kinds _ _)
  · obtain ⟨a, ha⟩ := parseText_start w "specification".toList
    obtain ⟨b, hb⟩ := phaseText_start ph' n'
    dsimp only at he
    rw [ha, hb] at he
    cases he
  · obtain ⟨a, ha⟩ := parseText_start w "specification".toList
    dsimp only at he
    rw [ha] at he
    cases he
  · exact absurd he.symm (parseText_kinds _ _)
  · dsimp only at he
    rw [he]
    exact ⟨rfl, fun hh => by cases hh⟩
  · obtain ⟨a, ha⟩ := parseText_start x "Version".toList
    obtain ⟨b, hb⟩ := phaseText_start ph' n'
    dsimp only at he
    rw [ha, hb] at he
    cases he
  · obtain ⟨a, ha⟩ := parseText_start x "Version".toList
    dsimp only at he
    rw [ha] at he
    cases he
  · obtain ⟨a, ha⟩ := parseText_start w' "specification".toList
    obtain ⟨b, hb⟩ := phaseText_start ph n
    dsimp only at he
    rw [ha, hb] at he
    cases he
  · obtain ⟨a, ha⟩ := parseText_start x' "Version".toList
    obtain ⟨b, hb⟩ := phaseText_start ph n
    dsimp only at he
    rw [ha, hb] at he
    cases he
  · dsimp only at he
    rw [he]
    exact ⟨rfl, fun hh => by cases hh⟩
  · obtain ⟨b, hb⟩ := phaseText_start ph n
    dsimp only at he
    rw [hb] at he
    cases he
  · obtain ⟨a, ha⟩ := parseText_start w' "specification".toList
    dsimp only at he
    rw [ha] at he
    cases he
  · obtain ⟨a, ha⟩ := parseText_start x' "Version".toList
    dsimp only at he
    rw [ha] at he
    cases he
  · obtain ⟨b, hb⟩ := phaseText_start ph' n'
    dsimp only at he
    rw [hb] at he
    cases he
  · exact ⟨rfl, fun hh => by cases hh⟩

example : Loud.parseSpecifier "1 | >".toList = Loud.parseSpecifier "> , 2.X".toList ∧
    Loud.parseSpecifier "1 | >".toList = .error ⟨.parseSpecificationError, "can not parse `>` to `specification`".toList⟩ := ⟨by rfl, by rfl⟩

/-! ### tags made by programs -/

/-- The long form of a phase: short forms have one, everything else is kept. -/
def LongPhase (ph y : PyStr) : Prop := (ph, y) ∈ Spelling.phaseMeaning ∨ (y = ph ∧ ∀ z, (ph, z) ∉ Spelling.phaseMeaning)

/-- The phases a tag may have. -/
def allowedPhases : TagClass → List PyStr
  | .pre => ["alpha".toList, "beta".toList, "rc".toList, "candidate".toList, "preview".toList]
  | .post => ["post".toList, "rev".toList]
  | .dev => ["dev".toList]

/-- The names of the classes. -/
def tagNames : TagClass → PyStr
  | .pre => "PreTag".toList
  | .post => "PostTag".toList
  | .dev => "DevTag".toList

theorem long_convert (ph : PyStr) : LongPhase ph (Tag.convertPhase ph) := by
  by_cases h : ph ∈ Spelling.phaseMeaning.map (·.1)
  · left
    have : ∀ q ∈ Spelling.phaseMeaning.map (·.1), (q, Tag.convertPhase q) ∈ Spelling.phaseMeaning := by decide +kernel
    exact this ph h
  · have no : ∀ z, (ph, z) ∉ Spelling.phaseMeaning := fun z hz => h (List.mem_map.2 ⟨_, hz, rfl⟩)
    refine .inr ⟨?_, no⟩
    have hs : ∀ q ∈ Phases.shortToPhase.map (·.1), q ∈ Spelling.phaseMeaning.map (·.1) := by decide +kernel
    have hn : ph ∉ Phases.shortToPhase.map (·.1) := fun hh => h (hs ph hh)
    unfold Tag.convertPhase
    rw [dictGet_none (fun v hv => hn (List.mem_map.2 ⟨_, hv, rfl⟩))]
    rfl

theorem long_unique {ph y z : PyStr} (h : LongPhase ph y) (h' : LongPhase ph z) : y = z := by
  have u : ∀ e ∈ Spelling.phaseMeaning, ∀ e' ∈ Spelling.phaseMeaning, e.1 = e'.1 → e.2 = e'.2 := by decide +kernel
  rcases h with h | ⟨h, hn⟩ <;> rcases h' with h' | ⟨h', hn'⟩
  · exact u _ h _ h' rfl
  · exact absurd h (hn' _)
  · exact absurd h' (hn _)
  · rw [h, h']

theorem phaseText_eq (ph name : PyStr) : Loud.phaseNotAllowed ph name = phaseText ph name := by
  unfold Loud.phaseNotAllowed phaseText
  generalize "phase `".toList = x
  generalize "` is not allowed in `".toList = y
  generalize "`".toList = z
  simp only [List.append_assoc]

/-- C115. The constructor of a tag raises on every phase whose long form is not of the class, and the message shows the long
form, not what was given. -/
theorem C115_tag (cls : TagClass) (ph : PyStr) (n : Int) (r : Raised) :
    Loud.createTag cls ph n = .error r ↔
      ∃ y, LongPhase ph y ∧ y ∉ allowedPhases cls ∧ r = ⟨.valueError, phaseText y (tagNames cls)⟩ := by
  have hset : Tag.convertPhase ph ∈ cls.phaseSet ↔ Tag.convertPhase ph ∈ allowedPhases cls := by
    have h1 : ∀ q ∈ cls.phaseSet, q ∈ allowedPhases cls ∨ q ∈ ["a", "b", "c", "pre", "r"].map String.toList := by cases cls <;> decide +kernel
    have h2 : ∀ q ∈ allowedPhases cls, q ∈ cls.phaseSet := by cases cls <;> decide +kernel
    refine ⟨fun h => (h1 _ h).resolve_right ?_, h2 _⟩
    have h3 : ∀ e ∈ Spelling.phaseMeaning, e.2 ∉ ["a", "b", "c", "pre", "r"].map String.toList := by decide +kernel
    have h4 : ∀ q ∈ ["a", "b", "c", "pre", "r"].map String.toList, q ∈ Spelling.phaseMeaning.map (·.1) := by decide +kernel
    rcases long_convert ph with h | ⟨h, hn⟩
    · exact h3 _ h
    · rw [h]
      intro hh
      obtain ⟨e, he, rfl⟩ := List.mem_map.1 (h4 _ hh)
      exact hn _ he
  have hname : Loud.className cls = tagNames cls := by cases cls <;> rfl
  unfold Loud.createTag
  dsimp only
  simp only [hset, hname, phaseText_eq]
  constructor
  · intro h
    split at h
    · cases h
    · rename_i hn
      cases h
      exact ⟨_, long_convert ph, hn, rfl⟩
  · rintro ⟨y, hy, hn, rfl⟩
    cases long_unique hy (long_convert ph)
    rw [if_neg hn]

example : Loud.createTag .post "a".toList 1 = .error ⟨.valueError, "phase `alpha` is not allowed in `PostTag`".toList⟩ ∧
    Loud.createTag .pre "r".toList 1 = .error ⟨.valueError, "phase `rev` is not allowed in `PreTag`".toList⟩ ∧
    Loud.createTag .dev "Dev".toList 1 = .error ⟨.valueError, "phase `Dev` is not allowed in `DevTag`".toList⟩ ∧
    Loud.createTag .pre "c".toList 1 = .ok ⟨"candidate".toList, 1⟩ := by decide +kernel

/-! ### ranges, points, unions -/

/-- C115. `VersionRange` complains about infinity when an absent bound is included, whatever the rest, and about the order of
the bounds otherwise. -/
theorem C115_range (min max : Option Version) (includeMin includeMax : Bool) (r : Raised) :
    Loud.mkRange min max includeMin includeMax = .error r ↔
      (((min = none ∧ includeMin = true) ∨ (max = none ∧ includeMax = true)) ∧ r = ⟨.valueError, "ranges can not contain infinities".toList⟩) ∨
      (∃ a b, min = some a ∧ max = some b ∧ b <ₚ a ∧
        r = ⟨.valueError, "version ranges expect `min <= max`, got `min > max`".toList⟩) := by
  have e1 : "ranges can not contain infinities".toList = Loud.canNotIncludeInfinity := rfl
  have e2 : "version ranges expect `min <= max`, got `min > max`".toList = Loud.minMaxConstraint := rfl
  rw [e1, e2]
  unfold Loud.mkRange
  generalize Loud.canNotIncludeInfinity = m1
  generalize Loud.minMaxConstraint = m2
  simp only [egt_iff, vlt_iff]
  unfold Item.comparableMin Item.comparableMax
  simp only [Item.min, Item.max, Item.fields]
  cases min <;> cases max
  · cases includeMin <;> cases includeMax <;> simp [not_lt_of_gt (extKey_negInf_lt_posInf Version.key), eq_comm]
  · rename_i y
    cases includeMin <;> simp [not_lt_of_gt (extKey_negInf_lt_fin Version.key y), eq_comm]
  · rename_i x
    cases includeMax <;> simp [not_lt_of_gt (extKey_fin_lt_posInf Version.key x), eq_comm]
  · rename_i x y
    simp only [ext_fin_lt, Option.isNone_some, Bool.false_and, Bool.false_eq_true, if_false]
    by_cases h : y.key < x.key
    · simp [h, eq_comm]
    · simp [h]

example : Loud.mkRange none (some (exVersion [1])) true true = .error ⟨.valueError, "ranges can not contain infinities".toList⟩ ∧
    Loud.mkRange (some (exVersion [2])) (some (exVersion [1, 5])) true false =
      .error ⟨.valueError, "version ranges expect `min <= max`, got `min > max`".toList⟩ ∧
    Loud.mkRange (some (exVersion [2])) none true false = .ok (exRange (some [2]) none true false) := by decide +kernel

/-- C115. `version` of a range that is not a point. -/
theorem C115_point (i : Item) (r : Raised) :
    Loud.version i = .error r ↔ i.isPoint = false ∧ r = ⟨.valueError, "version range is not a point".toList⟩ := by
  have e1 : "version range is not a point".toList = Loud.rangeNotPoint := rfl
  rw [e1]
  cases i with
  | point v => simp [Loud.version, Item.isPoint]
  | range x =>
    unfold Loud.version
    by_cases h : (Item.range x).isPoint = true
    · simp only [h, if_true, Bool.true_eq_false, false_and, iff_false]
      intro hh
      unfold Loud.versionUnchecked at hh
      cases h1 : (Item.range x).min with
      | some v => rw [h1] at hh; cases hh
      | none =>
        cases h2 : (Item.range x).max with
        | some v => rw [h1, h2] at hh; cases hh
        | none =>
          have hne : (Item.range x).isPoint ≠ true := by
            unfold Item.isPoint Item.isEmptyOrPoint Item.comparableMin Item.comparableMax
            dsimp only
            rw [h1, h2]
            intro hp
            rw [Bool.and_eq_true, eeq_iff] at hp
            exact absurd hp.1 (extKey_negInf_lt_posInf Version.key).ne
          exact absurd h hne
    · simp [h, eq_comm]

example : Loud.version (exRange (some [1]) (some [2]) true true) = .error ⟨.valueError, "version range is not a point".toList⟩ ∧
    Loud.version (exRange (some [1]) (some [1]) true false) = .error ⟨.valueError, "version range is not a point".toList⟩ ∧
    Loud.version (exRange (some [1]) (some [1]) true true) = .ok (exVersion [1]) := by decide +kernel

/-- C115. `VersionUnion` counts the items. -/
theorem C115_union (items : List Item) (r : Raised) :
    Loud.mkUnion items = .error r ↔
      (items = [] ∧ r = ⟨.valueError, "expected at least 2 items, 0 found".toList⟩) ∨
      ((∃ i, items = [i]) ∧ r = ⟨.valueError, "expected at least 2 items, 1 found; consider using it directly".toList⟩) := by
  have e1 : "expected at least 2 items, 0 found".toList = Loud.noItems := rfl
  have e2 : "expected at least 2 items, 1 found; consider using it directly".toList = Loud.oneItem := rfl
  rw [e1, e2]
  unfold Loud.mkUnion
  match items with
  | [] => simp [eq_comm]
  | [i] => simp [eq_comm]
  | i :: j :: l => simp

example : Loud.mkUnion [exPoint [1]] = .error ⟨.valueError, "expected at least 2 items, 1 found; consider using it directly".toList⟩ ∧
    Loud.mkUnion [] = .error ⟨.valueError, "expected at least 2 items, 0 found".toList⟩ ∧
    Loud.mkUnion [exPoint [2], exPoint [1]] = .ok (.union [exPoint [2], exPoint [1]]) := by decide +kernel

/-- C115. Operators made by programs: only `~=` with one release number raises. -/
theorem C115_operator (t : OpType) (v : Version) (hv : v.release.parts ≠ []) (r : Raised) :
    Loud.createOperator t v = .error r ↔ t = .tildeEqual ∧ (∃ n, v.release.parts = [n]) ∧
      r = ⟨.valueError, "`~=` can not be used with with a single version segment".toList⟩ := by
  have e1 : "`~=` can not be used with with a single version segment".toList = Loud.canNotUseTildeEqual := rfl
  rw [e1]
  have hl : v.lastIndex = 0 ↔ ∃ n, v.release.parts = [n] := by
    simp only [Version.lastIndex, Release.lastIndex, Release.precision]
    match h : v.release.parts with
    | [] => exact absurd h hv
    | [n] => simp
    | a :: b :: l =>
      simp
      omega
  unfold Loud.createOperator
  rw [← hl]
  by_cases h : t = .tildeEqual ∧ v.lastIndex = 0
  · rw [if_pos h]
    simp [h.1, h.2, eq_comm]
  · rw [if_neg h]
    simp only [reduceCtorEq, false_iff]
    exact fun hh => h ⟨hh.1, hh.2.1⟩

example : Loud.createOperator .tildeEqual (exVersion [1]) =
      .error ⟨.valueError, "`~=` can not be used with with a single version segment".toList⟩ ∧
    Loud.createOperator .tildeEqual (exVersion [1, 0]) = .ok ⟨.tildeEqual, exVersion [1, 0]⟩ ∧
    Loud.createOperator .tilde (exVersion [1]) = .ok ⟨.tilde, exVersion [1]⟩ := by decide +kernel

/-- C115. Specifiers made by programs count what they are given, with a `TypeError`. -/
theorem C115_specifiers (l : List Specifier) (r : Raised) :
    (Loud.mkAny l = .error r ↔ (l = [] ∧ r = ⟨.typeError, "expected at least 2 specifiers, 0 found".toList⟩) ∨
      ((∃ x, l = [x]) ∧ r = ⟨.typeError, "expected at least 2 specifiers, 1 found; consider using it directly".toList⟩)) ∧
    (Loud.mkAll l = .error r ↔ Loud.mkAny l = .error r) := by
  have e1 : "expected at least 2 specifiers, 0 found".toList = Loud.noSpecifiers := rfl
  have e2 : "expected at least 2 specifiers, 1 found; consider using it directly".toList = Loud.oneSpecifier := rfl
  rw [e1, e2]
  unfold Loud.mkAny Loud.mkAll
  match l with
  | [] => simp [Loud.checkSpecifiers, bind, Except.bind, eq_comm]
  | [x] => simp [Loud.checkSpecifiers, bind, Except.bind, eq_comm]
  | x :: y :: l => simp [Loud.checkSpecifiers, bind, Except.bind]

example : Loud.mkAll [.always] = .error ⟨.typeError, "expected at least 2 specifiers, 1 found; consider using it directly".toList⟩ ∧
    Loud.mkAny [.always, .never] = .ok (.any [.always, .never]) := ⟨by rfl, by rfl⟩

end Verif
