import Verif.Proofs.UnicodeDigits
import Verif.Props.TagStrings
import Verif.Props.ParserBy
/-!
# Strings with the digits of Unicode (C102)
-/

namespace Verif
open scoped Verif
open Re

/-- The table of ASCII. -/
def asciiTable : DigitTable where
  decimal c := if isDecimal c then some (c.toNat - 48) else none
  digit := isDecimal
  ascii _ _ := rfl
  ascii_digit _ _ := rfl
  decimal_digit c h := by rw [h]; rfl
  space c h := by
    have aux : ∀ c ∈ "0123456789".toList, isSpace c = false := by decide
    rw [Bool.eq_false_iff]
    intro hd
    rw [aux c (digit_mem c ((isDecimal_iff c).1 hd))] at h
    cases h
  letter := by decide

/-- ASCII, the Arabic-Indic digits, and the superscript two, which is a digit without decimal value. -/
def arabicTable : DigitTable where
  decimal c := if isDecimal c then some (c.toNat - 48) else if 0x660 ≤ c.toNat ∧ c.toNat ≤ 0x669 then some (c.toNat - 0x660) else none
  digit c := isDecimal c || decide (0x660 ≤ c.toNat ∧ c.toNat ≤ 0x669) || decide (c = '²')
  ascii c h := by rw [if_neg (c := 0x660 ≤ c.toNat ∧ c.toNat ≤ 0x669) (by omega)]
  ascii_digit c h := by
    have h1 : ¬ (0x660 ≤ c.toNat ∧ c.toNat ≤ 0x669) := by omega
    have h2 : c ≠ '²' := by rintro rfl; exact absurd h (by decide)
    simp [h1, h2]
  decimal_digit c h := by
    simp only [Bool.or_eq_false_iff, decide_eq_false_iff_not] at h
    rw [h.1.1, if_neg (by simp), if_neg h.1.2]
  space c h := by
    have h1 := asciiTable.space c h
    have h1 : isDecimal c = false := h1
    have h2 : ¬ (0x660 ≤ c.toNat ∧ c.toNat ≤ 0x669) := by
      unfold isSpace at h
      simp only [Bool.or_eq_true, Bool.and_eq_true, decide_eq_true_eq] at h
      omega
    have h3 : c ≠ '²' := by rintro rfl; exact absurd h (by decide)
    simp [h1, h2, h3]
  letter := by decide

theorem pyIntIn_ascii (s : PyStr) : pyIntIn asciiTable s = pyInt s := by
  have e1 : ∀ c, (asciiTable.decimal c).isSome = isDecimal c := by
    intro c
    show (if isDecimal c then some (c.toNat - 48) else none).isSome = _
    cases isDecimal c <;> rfl
  unfold pyIntIn pyInt
  simp only [e1]
  split
  · rename_i h
    congr 2
    simp only [List.all_eq_true, Bool.and_eq_true] at h
    have key : ∀ (l : PyStr) (k : Int), (∀ c ∈ l, isDecimal c = true) → l.foldl (fun n c => 10 * n + ((asciiTable.decimal c).getD 0 : Int)) k =
        l.foldl (fun n c => 10 * n + ((c.toNat : Int) - 48)) k := by
      intro l
      induction l with
      | nil => intro k _; rfl
      | cons c l ih =>
        intro k hl
        have hc := hl c (by simp)
        have h48 : 48 ≤ c.toNat := ((isDecimal_iff c).1 hc).1
        rw [List.foldl_cons, List.foldl_cons, (asciiTable.of_digit ((isDecimal_iff c).1 hc)).1, ih _ (fun x hx => hl x (by simp [hx]))]
        congr 1
        simp only [Option.getD_some]
        omega
    refine key _ _ ?_
    intro c hc
    obtain ⟨g, hg, hc⟩ := List.mem_flatten.1 hc
    exact (h g hg).2 c hc
  · rfl

/-- C102. The model without a table is the one with the table of ASCII. -/
theorem C102_default (s : PyStr) : Epoch.parseIn asciiTable s = Epoch.parse s ∧ Release.parseIn asciiTable s = Release.parse s ∧
    Local.parseIn asciiTable s = Local.parse s := by
  have e : pyIntIn asciiTable = pyInt := funext pyIntIn_ascii
  have e2 : LocalPart.parseIn asciiTable = LocalPart.parse := by
    funext s
    unfold LocalPart.parseIn LocalPart.parse
    rw [e]
    rfl
  unfold Epoch.parseIn Epoch.parse Release.parseIn Release.parse Local.parseIn Local.parse
  rw [e, e2]
  exact ⟨rfl, rfl, rfl⟩

example : Epoch.parseIn asciiTable " +1_0".toList = .ok ⟨10⟩ ∧ Epoch.parseIn asciiTable "٣".toList = .error .valueError ∧
    Local.parseIn asciiTable "²".toList = .ok ⟨[.str "²".toList]⟩ := by decide +kernel

theorem tag_parseIn (T : DigitTable) (cls : TagClass) (s : PyStr) : Tag.parseIn T cls s = Tag.parse cls s := by
  unfold Tag.parseIn Tag.parse
  cases hm : fullmatch Pattern.tag s with
  | none => rfl
  | some m =>
    have ht : ∃ word value, TagText s word value := by
      by_contra hn
      rw [(fullmatch_none _ _).2 fun ⟨c, hc⟩ => hn (matches_tag s c hc)] at hm
      cases hm
    obtain ⟨word, value, rfl, hw, hv⟩ := ht
    obtain ⟨m', h1, h2, h3⟩ := fullmatch_tag word value hw hv
    have : m = m' := by
      cases value with
      | none => exact Option.some.inj (hm.symm.trans h1)
      | some x => exact Option.some.inj (hm.symm.trans h1)
    subst this
    simp only [h2, h3]
    cases value with
    | none => rfl
    | some x => simp only [Option.map_some, pyIntIn_digits T (hv x.1 x.2 rfl).2]

theorem version_parseIn (T : DigitTable) (s : PyStr) : Version.parseIn T s = Version.parse s := by
  unfold Version.parseIn Version.parse
  cases hm : fullmatch Pattern.version s with
  | none => rfl
  | some m =>
    obtain ⟨p, hp, gp, rfl, rfl⟩ := fullmatch_version hm
    obtain ⟨h1, h2, h3, h4, h5, h6⟩ := get_caps p
    have tag : ∀ cls, Tag.parseIn T cls = Tag.parse cls := fun cls => funext (tag_parseIn T cls)
    have rel : Release.parseIn T (Spelling.releaseText p.major p.release) = Release.parse (Spelling.releaseText p.major p.release) := by
      unfold Release.parseIn Release.parse
      rw [splitDot_release hp.major hp.release, mapAll_congr (g := pyInt)]
      intro d hd
      rcases List.mem_cons.1 hd with rfl | hd
      · exact pyIntIn_digits T hp.major
      · exact pyIntIn_digits T (hp.release d hd)
    have loc : optionally (Local.parseIn T) (p.local_.map Spelling.localBody) = optionally Local.parse (p.local_.map Spelling.localBody) := by
      cases hl : p.local_ with
      | none => rfl
      | some l =>
        have e : Local.parseIn T (Spelling.localBody l) = Local.parse (Spelling.localBody l) := by
          unfold Local.parseIn Local.parse
          have hl' := hp.local_ l hl
          rw [splitSeparators_local hl', mapAll_congr (g := LocalPart.parse)]
          intro d hd
          rcases List.mem_cons.1 hd with rfl | hd
          · exact part_alnum T hl'.1
          · obtain ⟨x, hx, rfl⟩ := List.mem_map.1 hd
            exact part_alnum T (hl'.2 x hx).2
        simp only [Option.map_some, optionally, e]
    have epo : ∀ d, p.epoch = some d → Epoch.parseIn T d = Epoch.parse d := by
      intro d hd
      unfold Epoch.parseIn Epoch.parse
      rw [pyIntIn_digits T (hp.epoch d hd)]
    have imp : optionally (fun s => do Tag.defaultPhaseWithValue .post (← pyIntIn T s)) (Re.get .postImplicit p.caps) =
        optionally (fun s => do Tag.defaultPhaseWithValue .post (← pyInt s)) (Re.get .postImplicit p.caps) := by
      cases hpo : p.post with
      | none =>
        rw [hpo] at h6
        rw [h6.1]
        rfl
      | some po =>
        rw [hpo] at h6
        cases po with
        | implicit d =>
          have hd : Digits d := hp.post _ hpo
          simp only at h6
          simp only [h6, optionally, pyIntIn_digits T hd]
        | tag t =>
          rw [h6.1]
          rfl
    simp only [tag, h1, h2, h3, h4, h5, rel, loc, imp]
    cases he : p.epoch with
    | none => rfl
    | some d =>
      simp only [epo d he]
      rfl

/-- C102. Versions, tags, specifiers and version sets are parsed the same whichever characters count as digits. -/
theorem C102_versions (T : DigitTable) (s : PyStr) (cls : TagClass) (lim : Nat) :
    Version.parseIn T s = Version.parse s ∧ Tag.parseIn T cls s = Tag.parse cls s ∧ Specifier.parseIn T s = Specifier.parse s ∧
    VSet.parseIn T lim s = VSet.parse lim s := by
  refine ⟨version_parseIn T s, tag_parseIn T cls s, ?_, ?_⟩
  · exact (C101_agree _ _ (fun w _ => version_parseIn T w) s lim).1
  · exact (C101_agree _ _ (fun w _ => version_parseIn T w) s lim).2

example : Version.parseIn arabicTable "1.٣".toList = .error .parseVersionError ∧ Version.parseIn arabicTable "1+²".toList = .error .parseVersionError ∧
    Version.parseIn arabicTable "1.3+ſ2".toList = .ok (exVersion [1, 3] none none none (some ⟨[.str "ſ2".toList]⟩)) := by decide +kernel

/-- C102. `Epoch.from_string` reads exactly the numbers: blanks, a sign, groups of decimal characters with underscores between
them, blanks. Everything else is a ValueError. -/
theorem C102_epoch (T : DigitTable) (s : PyStr) :
    (∀ e : Epoch, Epoch.parseIn T s = .ok e ↔ IntText T s e.value) ∧ ∀ x, Epoch.parseIn T s = .error x ↔ x = .valueError ∧ ¬ ∃ n, IntText T s n := by
  unfold Epoch.parseIn
  cases h : pyIntIn T s with
  | error y =>
    have hy := pyIntIn_error T s y h
    have no : ∀ n, ¬ IntText T s n := fun n hn => by
      rw [(pyIntIn_ok T s n).2 hn] at h
      cases h
    refine ⟨fun e => ⟨fun h' => (by cases h'), fun h' => absurd h' (no _)⟩, fun x => ⟨fun h' => ?_, fun h' => ?_⟩⟩
    · cases h'
      exact ⟨hy, fun ⟨n, hn⟩ => no n hn⟩
    · rw [h'.1, hy]
      rfl
  | ok m =>
    have hm := (pyIntIn_ok T s m).1 h
    refine ⟨fun e => ⟨fun h' => ?_, fun h' => ?_⟩, fun x => ⟨fun h' => (by cases h'), fun h' => absurd ⟨m, hm⟩ h'.2⟩⟩
    · cases h'
      exact hm
    · have := (pyIntIn_ok T s _).2 h'
      rw [h] at this
      cases this
      rfl

/-- The separator U+001C is whitespace, but `int` does not skip it. -/
example : Epoch.parseIn arabicTable " -1_٣\n".toList = .ok ⟨-13⟩ ∧ Epoch.parseIn arabicTable "²".toList = .error .valueError ∧
    Epoch.parseIn arabicTable "\u001c1".toList = .error .valueError ∧ isSpace '\u001c' = true := by decide +kernel

theorem splitDot_eq (s : PyStr) : splitDot s = s.splitOn '.' := by
  unfold splitDot
  rw [splitAt_eq_splitOnP, List.splitOn]
  congr 1

theorem mapAll_exact {α : Type} {f : PyStr → Except PyErr α} {G : PyStr → α → Prop} (hok : ∀ w a, f w = .ok a ↔ G w a)
    (herr : ∀ w e, f w = .error e → e = .valueError) (l : List PyStr) :
    (∀ ps, mapAll f l = .ok ps ↔ List.Forall₂ G l ps) ∧ ∀ x, mapAll f l = .error x ↔ x = .valueError ∧ ∃ w ∈ l, ¬ ∃ a, G w a := by
  have h1 : ∀ ps, mapAll f l = .ok ps ↔ List.Forall₂ G l ps := by
    intro ps
    rw [mapAll_ok_iff]
    have e : (fun a b => f a = .ok b) = G := by
      funext a b
      exact propext (hok a b)
    rw [e]
  refine ⟨h1, fun x => ⟨fun h => ?_, fun ⟨hx, w, hw, hn⟩ => ?_⟩⟩
  · obtain ⟨l1, a, l2, rfl, -, h2⟩ := (mapAll_error_iff f x l).1 h
    refine ⟨herr a x h2, a, by simp, fun ⟨b, hb⟩ => ?_⟩
    rw [(hok a b).2 hb] at h2
    cases h2
  · cases h : mapAll f l with
    | ok ps =>
      obtain ⟨b, -, hb⟩ := forall₂_left ((h1 ps).1 h) hw
      exact absurd ⟨b, hb⟩ hn
    | error y =>
      obtain ⟨l1, a, l2, -, -, h2⟩ := (mapAll_error_iff f y l).1 h
      rw [hx, herr a y h2]

/-- C102. `Release.from_string` reads exactly the strings of numbers with dots between them. -/
theorem C102_release (T : DigitTable) (s : PyStr) :
    (∀ r : Release, Release.parseIn T s = .ok r ↔ List.Forall₂ (IntText T) (s.splitOn '.') r.parts) ∧
    ∀ x, Release.parseIn T s = .error x ↔ x = .valueError ∧ ∃ w ∈ s.splitOn '.', ¬ ∃ n, IntText T w n := by
  have hne : splitDot s ≠ [] := by rw [splitDot_eq]; exact List.splitOnP_ne_nil _ _
  unfold Release.parseIn
  rw [← splitDot_eq]
  generalize splitDot s = l at hne
  obtain ⟨h1, h2⟩ := mapAll_exact (pyIntIn_ok T) (pyIntIn_error T) l
  cases h : mapAll (pyIntIn T) l with
  | error y =>
    obtain ⟨hy, w, hw, hn⟩ := (h2 y).1 h
    refine ⟨fun r => ⟨fun h' => (by cases h'), fun h' => ?_⟩, fun x => ?_⟩
    · obtain ⟨b, -, hb⟩ := forall₂_left h' hw
      exact absurd ⟨b, hb⟩ hn
    · rw [← h2 x, h]
      exact ⟨fun h' => (by cases h'; rfl), fun h' => (by cases h'; rfl)⟩
  | ok ps =>
    have hps : ps ≠ [] := by
      rintro rfl
      cases (h1 []).1 h
      exact hne rfl
    have e : (do Release.create (← (.ok ps : Except PyErr (List Int)))) = (.ok ⟨ps⟩ : Except PyErr Release) := create_ok hps
    rw [e]
    refine ⟨fun r => ?_, fun x => ?_⟩
    · rw [← h1 r.parts, h]
      obtain ⟨q⟩ := r
      simp
    · rw [← h2 x, h]
      simp

example : Release.parseIn arabicTable "1.٣".toList = .ok ⟨[1, 3]⟩ ∧ Release.parseIn arabicTable "1.²".toList = .error .valueError ∧
    Release.parseIn arabicTable "".toList = .error .valueError := by decide +kernel

/-- C102. `Local.from_string` cuts the string at the separators. It raises ValueError iff some part consists of digits of which one
has no decimal value, and reads every other string. -/
theorem C102_local (T : DigitTable) (s : PyStr) :
    (∀ l : Local, Local.parseIn T s = .ok l ↔ List.Forall₂ (LocalText T) (s.splitOnP (fun c => decide (IsSep c))) l.parts) ∧
    ∀ x, Local.parseIn T s = .error x ↔
      x = .valueError ∧ ∃ w ∈ s.splitOnP (fun c => decide (IsSep c)), w ≠ [] ∧ (∀ c ∈ w, T.digit c = true) ∧ ∃ c ∈ w, T.decimal c = none := by
  have hne : splitSeparators s ≠ [] := by rw [splitSeparators_eq]; exact List.splitOnP_ne_nil _ _
  unfold Local.parseIn
  rw [← splitSeparators_eq]
  generalize splitSeparators s = l at hne
  have bad : ∀ w, (w ≠ [] ∧ (∀ c ∈ w, T.digit c = true) ∧ ∃ c ∈ w, T.decimal c = none) ↔ ¬ ∃ p, LocalText T w p := by
    intro w
    have h1 := part_error T w .valueError
    simp only [true_and] at h1
    rw [← h1]
    constructor
    · rintro h ⟨p, hp⟩
      rw [(part_ok T w p).2 hp] at h
      cases h
    · intro h
      cases h' : LocalPart.parseIn T w with
      | ok p => exact absurd ⟨p, (part_ok T w p).1 h'⟩ h
      | error e => rw [((part_error T w e).1 h').1]
  simp only [bad]
  obtain ⟨h1, h2⟩ := mapAll_exact (part_ok T) (fun w e h => ((part_error T w e).1 h).1) l
  cases h : mapAll (LocalPart.parseIn T) l with
  | error y =>
    obtain ⟨hy, w, hw, hn⟩ := (h2 y).1 h
    refine ⟨fun r => ⟨fun h' => (by cases h'), fun h' => ?_⟩, fun x => ?_⟩
    · obtain ⟨b, -, hb⟩ := forall₂_left h' hw
      exact absurd ⟨b, hb⟩ hn
    · rw [← h2 x, h]
      exact ⟨fun h' => (by cases h'; rfl), fun h' => (by cases h'; rfl)⟩
  | ok ps =>
    have hps : ps ≠ [] := by
      rintro rfl
      cases (h1 []).1 h
      exact hne rfl
    have e : (do Local.create (← (.ok ps : Except PyErr (List LocalPart)))) = (.ok ⟨ps⟩ : Except PyErr Local) := by
      show Local.create ps = _
      unfold Local.create
      rw [if_neg (by simpa using hps)]
    rw [e]
    refine ⟨fun r => ?_, fun x => ?_⟩
    · rw [← h1 r.parts, h]
      obtain ⟨q⟩ := r
      simp
    · rw [← h2 x, h]
      simp

example : Local.parseIn arabicTable "٣-x".toList = .ok ⟨[.int 3, .str "x".toList]⟩ ∧ Local.parseIn arabicTable "x.²".toList = .error .valueError ∧
    Local.parseIn arabicTable "x².".toList = .ok ⟨[.str "x²".toList, .str []]⟩ := by decide +kernel

/-- C102. What was read from the string of a local segment is printed such that it is read as the same segment. -/
theorem C102_round_trip (T : DigitTable) (s : PyStr) (l : Local) (h : Local.parseIn T s = .ok l) : Local.parseIn T l.toStr = .ok l := by
  have hf := ((C102_local T s).1 l).1 h
  rw [← splitAt_eq_splitOnP] at hf
  have part : ∀ x ∈ l.parts, LocalText T x.toStr x ∧ ∀ c ∈ x.toStr, decide (IsSep c) = false := by
    intro x hx
    obtain ⟨w, hw, ⟨h1, h2, rfl⟩ | ⟨h1, rfl⟩⟩ := forall₂_right hf hx
    · have hn : (0 : Int) ≤ (T.number w : Int) := Int.natCast_nonneg _
      have hd := intStr_digits hn
      refine ⟨.inl ⟨hd.1, fun c hc => ?_, ?_⟩, fun c hc => ?_⟩
      · rw [(T.of_digit (hd.2 c hc)).1]
        simp
      · show LocalPart.int _ = .int (T.number (intStr (T.number w)))
        rw [T.number_digits hd.2, number_intStr hn]
      · rw [decide_eq_false_iff_not]
        exact digit_not_sep c (hd.2 c hc)
    · exact ⟨.inr ⟨h1, rfl⟩, splitAt_none hw⟩
  rw [(C102_local T _).1, ← splitAt_eq_splitOnP]
  have e : splitAt (fun c => decide (IsSep c)) l.toStr = l.parts.map LocalPart.toStr := by
    unfold Local.toStr
    cases hl : l.parts with
    | nil =>
      rw [hl] at hf
      cases h' : splitAt (fun c => decide (IsSep c)) s with
      | nil => exact absurd h' (splitAt_clean _ s).1
      | cons a b => rw [h'] at hf; cases hf
    | cons x m =>
      rw [hl] at part
      rw [List.map_cons, join_cons]
      have e : (m.map LocalPart.toStr).map (['.'] ++ ·) = (m.map (fun x => ('.', x.toStr))).map (fun x => x.1 :: x.2) := by
        rw [List.map_map, List.map_map]
        rfl
      rw [e, splitAt_parts _ _ _ (part x (by simp)).2]
      · rw [List.map_map]
        rfl
      · intro y hy
        obtain ⟨z, hz, rfl⟩ := List.mem_map.1 hy
        exact ⟨by show decide (IsSep '.') = true; decide, (part z (by simp [hz])).2⟩
  rw [e, List.forall₂_map_left_iff, List.forall₂_same]
  exact fun x hx => (part x hx).1

example : Local.parseIn arabicTable "٣-x²".toList = .ok ⟨[.int 3, .str "x²".toList]⟩ ∧
    (⟨[.int 3, .str "x²".toList]⟩ : Local).toStr = "3.x²".toList := by decide +kernel

theorem IntText.congr {T U : DigitTable} {s : PyStr} (h : ∀ c ∈ s, T.decimal c = U.decimal c) {n : Int} (hn : IntText T s n) : IntText U s n := by
  obtain ⟨l, sign, g, r, e, hl, hr, hs, hne, hg, rfl⟩ := hn
  have mem : ∀ d ∈ g, ∀ c ∈ d, c ∈ s := by
    intro d hd c hc
    have : c ∈ ['_'].intercalate g := by
      clear e hne hg
      induction g with
      | nil => cases hd
      | cons a g ih =>
        cases g with
        | nil => simpa [List.intercalate] using (List.mem_singleton.1 hd) ▸ hc
        | cons b g =>
          have e : ['_'].intercalate (a :: b :: g) = a ++ ['_'] ++ ['_'].intercalate (b :: g) := by simp [List.intercalate]
          rw [e]
          rcases List.mem_cons.1 hd with rfl | hd
          · simp [hc]
          · exact List.mem_append_right _ (ih hd)
    rw [e]
    simp [this]
  refine ⟨l, sign, g, r, e, hl, hr, hs, hne, fun d hd => ⟨(hg d hd).1, fun c hc => ?_⟩, ?_⟩
  · rw [← h c (mem d hd c hc)]
    exact (hg d hd).2 c hc
  · have : T.number g.flatten = U.number g.flatten := by
      unfold DigitTable.number
      congr 1
      apply List.map_congr_left
      intro c hc
      obtain ⟨d, hd, hc⟩ := List.mem_flatten.1 (List.mem_reverse.1 hc)
      rw [h c (mem d hd c hc)]
    rw [this]

theorem pyIntIn_congr {T U : DigitTable} {s : PyStr} (h : ∀ c ∈ s, T.decimal c = U.decimal c) : pyIntIn T s = pyIntIn U s := by
  cases h1 : pyIntIn T s with
  | ok n => exact ((pyIntIn_ok U s n).2 (((pyIntIn_ok T s n).1 h1).congr h)).symm
  | error e =>
    cases h2 : pyIntIn U s with
    | ok n =>
      rw [(pyIntIn_ok T s n).2 (((pyIntIn_ok U s n).1 h2).congr (fun c hc => (h c hc).symm))] at h1
      cases h1
    | error e' => rw [pyIntIn_error T s e h1, pyIntIn_error U s e' h2]

/-- C102. On strings of ASCII characters the table does not matter. -/
theorem C102_ascii (T : DigitTable) (s : PyStr) (hs : ∀ c ∈ s, c.toNat < 128) :
    Epoch.parseIn T s = Epoch.parse s ∧ Release.parseIn T s = Release.parse s ∧ Local.parseIn T s = Local.parse s := by
  have hdec : ∀ c ∈ s, T.decimal c = asciiTable.decimal c := fun c hc => T.ascii c (hs c hc)
  have hdig : ∀ c ∈ s, T.digit c = asciiTable.digit c := fun c hc => T.ascii_digit c (hs c hc)
  obtain ⟨h1, h2, h3⟩ := C102_default s
  rw [← h1, ← h2, ← h3]
  unfold Epoch.parseIn Release.parseIn Local.parseIn
  refine ⟨by rw [pyIntIn_congr hdec], ?_, ?_⟩
  · rw [mapAll_congr (g := pyIntIn asciiTable)]
    intro w hw
    exact pyIntIn_congr fun c hc => hdec c ((splitAt_clean _ s).2 w hw c hc).2
  · rw [mapAll_congr (g := LocalPart.parseIn asciiTable)]
    intro w hw
    rw [splitSeparators_eq, ← splitAt_eq_splitOnP] at hw
    have mem : ∀ c ∈ w, c ∈ s := fun c hc => ((splitAt_clean _ s).2 w hw c hc).2
    unfold LocalPart.parseIn
    rw [pyIntIn_congr fun c hc => hdec c (mem c hc)]
    have : w.all T.digit = w.all asciiTable.digit := by
      rw [Bool.eq_iff_iff, List.all_eq_true, List.all_eq_true]
      exact forall_congr' fun c => ⟨fun h hc => hdig c (mem c hc) ▸ h hc, fun h hc => (hdig c (mem c hc)).symm ▸ h hc⟩
    rw [this]

example : Epoch.parseIn arabicTable "1_2".toList = .ok ⟨12⟩ ∧ Epoch.parse "1_2".toList = .ok ⟨12⟩ ∧
    Epoch.parseIn arabicTable "٣".toList ≠ Epoch.parse "٣".toList := by decide +kernel

end Verif
