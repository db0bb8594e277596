import Verif.Proofs.Spelling
/-!
# A version string has only one greedy spelling

The spelling is read off the string from left to right.
-/

namespace Verif

theorem digit_mem (c : Char) (h : IsDigit c) : c ∈ "0123456789".toList := by
  obtain ⟨h1, h2⟩ := h
  have h1 : 48 ≤ c.toNat := h1
  have h2 : c.toNat ≤ 57 := h2
  rw [← Char.ofNat_toNat c]
  generalize c.toNat = n at h1 h2
  have : ∀ n < 58, 48 ≤ n → Char.ofNat n ∈ "0123456789".toList := by decide
  exact this n (by omega) h1

theorem fold_digit (c : Char) (h : IsDigit c) : foldCase c = c := by
  have : ∀ c ∈ "0123456789".toList, foldCase c = c := by decide
  exact this c (digit_mem c h)

theorem fold_sep (c : Char) (h : IsSep c) : foldCase c = c := by
  rcases h with rfl | rfl | rfl <;> decide

/-- A character with a letter as lower case. -/
theorem letter_of_fold (c : Char) (h : foldCase c ∈ "abcdefghijklmnopqrstuvwxyz".toList) : ¬ IsDigit c ∧ ¬ IsSep c := by
  constructor
  · intro hd
    rw [fold_digit c hd] at h
    revert c
    have : ∀ c ∈ "0123456789".toList, c ∉ "abcdefghijklmnopqrstuvwxyz".toList := by decide
    intro c h2 h1
    exact this c (digit_mem c h1) h2
  · rintro (rfl | rfl | rfl) <;> revert h <;> decide

theorem digit_not_sep (c : Char) (h : IsDigit c) : ¬ IsSep c := by
  have : ∀ c ∈ "0123456789".toList, ¬ IsSep c := by decide
  exact this c (digit_mem c h)

/-! ### reading -/

def readSep : PyStr → PyStr × PyStr
  | [] => ([], [])
  | c :: s => if IsSep c then ([c], s) else ([], c :: s)

def readDigits (s : PyStr) : PyStr × PyStr := (s.takeWhile (fun c => decide (IsDigit c)), s.dropWhile (fun c => decide (IsDigit c)))

def readValue (s : PyStr) : Option (PyStr × PyStr) × PyStr :=
  let d := readDigits (readSep s).2
  if d.1 = [] then (none, s) else (some ((readSep s).1, d.1), d.2)

def readTag (words : List PyStr) (s : PyStr) : Option TagSpelling × PyStr :=
  let s' := (readSep s).2
  match words.find? (fun w => w.isPrefixOf (s'.map foldCase)) with
  | none => (none, s)
  | some w =>
    let v := readValue (s'.drop w.length)
    (some ⟨(readSep s).1, s'.take w.length, v.1⟩, v.2)

/-- The string does not start with a digit. -/
def NoDigit (r : PyStr) : Prop := ∀ c r', r = c :: r' → ¬ IsDigit c
/-- The string does not start with a separator and a digit. -/
def NoSepDigit (r : PyStr) : Prop := ∀ s c r', r = s :: c :: r' → IsSep s → ¬ IsDigit c
/-- The string is empty or starts with one of the characters, up to case. -/
def Start (l : List Char) (r : PyStr) : Prop := r = [] ∨ ∃ c r', r = c :: r' ∧ foldCase c ∈ l

theorem readSep_of (s r : PyStr) (hs : OptSep s) (hr : s = [] → ∀ c r', r = c :: r' → ¬ IsSep c) : readSep (s ++ r) = (s, r) := by
  rcases hs with rfl | ⟨c, rfl, hc⟩
  · cases r with
    | nil => rfl
    | cons c r => simp [readSep, hr rfl c r rfl]
  · simp [readSep, hc]

theorem readDigits_of (d r : PyStr) (hd : ∀ c ∈ d, IsDigit c) (hr : NoDigit r) : readDigits (d ++ r) = (d, r) := by
  unfold readDigits
  induction d with
  | nil =>
    cases r with
    | nil => rfl
    | cons c r => simp [hr c r rfl]
  | cons c d ih =>
    have hc := hd c (by simp)
    have := ih (fun x hx => hd x (List.mem_cons_of_mem _ hx))
    simp only [Prod.mk.injEq] at this
    simp [hc, this]

theorem readValue_some (s d r : PyStr) (hs : OptSep s) (hd : Digits d) (hr : NoDigit r) : readValue (s ++ d ++ r) = (some (s, d), r) := by
  have h1 : readSep (s ++ (d ++ r)) = (s, d ++ r) := by
    apply readSep_of _ _ hs
    rintro - c r' h
    cases d with
    | nil => exact absurd rfl hd.1
    | cons x d =>
      simp only [List.cons_append, List.cons.injEq] at h
      exact digit_not_sep c (h.1 ▸ hd.2 x (by simp))
  unfold readValue
  rw [List.append_assoc, h1]
  simp only [readDigits_of d r hd.2 hr, hd.1, if_false]

theorem readValue_none (r : PyStr) (h1 : NoDigit r) (h2 : NoSepDigit r) : readValue r = (none, r) := by
  unfold readValue
  have : (readDigits (readSep r).2).1 = [] := by
    cases r with
    | nil => rfl
    | cons c r =>
      by_cases hc : IsSep c
      · cases r with
        | nil => simp [readSep, hc, readDigits]
        | cons c' r => simp [readSep, hc, readDigits, h2 c c' r rfl hc]
      · simp [readSep, hc, readDigits, h1 c r rfl]
  simp [this]

/-- The words of phases: not empty, lower case letters. -/
def Lower (words : List PyStr) : Prop := ∀ w ∈ words, w ≠ [] ∧ ∀ c ∈ w, c ∈ "abcdefghijklmnopqrstuvwxyz".toList

theorem phase_head {words : List PyStr} (hw : Lower words) {t : TagSpelling} (ht : t.WF words) :
    ∃ c p, t.phase = c :: p ∧ some (foldCase c) ∈ words.map List.head? ∧ foldCase c ∈ "abcdefghijklmnopqrstuvwxyz".toList := by
  have h := ht.phase
  cases hp : t.phase with
  | nil => rw [hp] at h; exact absurd rfl (hw _ h).1
  | cons c p =>
    rw [hp] at h
    refine ⟨c, p, rfl, List.mem_map.2 ⟨_, h, rfl⟩, (hw _ h).2 _ (by simp)⟩

/-- Reading a tag that is there. `r` must not continue the tag. -/
theorem readTag_some {words : List PyStr} (hw : Lower words) (t : TagSpelling) (ht : t.WF words) (r : PyStr) (h1 : NoDigit r)
    (h2 : t.value = none → NoSepDigit r)
    (h3 : words.find? (fun w => w.isPrefixOf ((t.phase ++ t.valueText ++ r).map foldCase)) = some (t.phase.map foldCase)) :
    readTag words (t.text ++ r) = (some t, r) := by
  obtain ⟨c, p, hp, -, hc⟩ := phase_head hw ht
  have hs : readSep (t.sep ++ (t.phase ++ t.valueText ++ r)) = (t.sep, t.phase ++ t.valueText ++ r) := by
    apply readSep_of _ _ ht.sep
    rintro - c' r' h
    rw [hp] at h
    simp only [List.cons_append, List.cons.injEq] at h
    exact h.1 ▸ (letter_of_fold c hc).2
  unfold readTag
  have e : t.text ++ r = t.sep ++ (t.phase ++ t.valueText ++ r) := by simp [TagSpelling.text, TagSpelling.body]
  rw [e, hs]
  simp only [h3, List.length_map]
  have e1 : List.drop t.phase.length (t.phase ++ t.valueText ++ r) = t.valueText ++ r := by
    rw [List.append_assoc, List.drop_left]
  have e2 : List.take t.phase.length (t.phase ++ t.valueText ++ r) = t.phase := by
    rw [List.append_assoc, List.take_left]
  rw [e1, e2]
  have hv : readValue (t.valueText ++ r) = (t.value, r) := by
    obtain ⟨s, ph, v⟩ := t
    cases v with
    | none => exact readValue_none r h1 (h2 rfl)
    | some x =>
      obtain ⟨hs, hd⟩ := ht.value x.1 x.2 rfl
      exact readValue_some x.1 x.2 r hs hd h1
  rw [hv]

theorem readTag_none {words : List PyStr} (r : PyStr)
    (h : words.find? (fun w => w.isPrefixOf ((readSep r).2.map foldCase)) = none) : readTag words r = (none, r) := by
  unfold readTag
  simp only [h]

/-! ### what can follow a tag -/

theorem preWords_lower : Lower preWords := by unfold Lower; decide
theorem postWords_lower : Lower postWords := by unfold Lower; decide
theorem devWords_lower : Lower devWords := by unfold Lower; decide

/-- Characters that can follow a pre phase, up to case. -/
def followers : List Char := "0123456789.-_+dpr".toList

theorem Start.mono {l l' : List Char} {r : PyStr} (h : Start l r) (hl : ∀ c ∈ l, c ∈ l') : Start l' r := by
  rcases h with rfl | ⟨c, r', rfl, hc⟩
  · exact .inl rfl
  · exact .inr ⟨c, r', rfl, hl _ hc⟩

theorem Start.noDigit {l : List Char} {r : PyStr} (h : Start l r) (hl : ∀ c ∈ "0123456789".toList, c ∉ l) : NoDigit r := by
  rcases h with rfl | ⟨c, r', rfl, hc⟩
  · intro c r' h; cases h
  · rintro c' r'' ⟨⟩ hd
    rw [fold_digit c hd] at hc
    exact hl c (digit_mem c hd) hc

theorem local_start (l : Option (PyStr × List (Char × PyStr))) : Start ['+'] (Spelling.localText l) := by
  cases l with
  | none => exact .inl rfl
  | some l => exact .inr ⟨'+', _, rfl, by decide⟩

theorem local_noSepDigit (l : Option (PyStr × List (Char × PyStr))) : NoSepDigit (Spelling.localText l) := by
  cases l with
  | none => rintro s c r' h; simp [Spelling.localText, Spelling.optText] at h
  | some l =>
    rintro s c r' h hs
    simp only [Spelling.localText, Spelling.optText, List.cons.injEq] at h
    rw [← h.1] at hs
    exact absurd hs (by decide)

/-- The start of a tag. -/
theorem tag_start {words : List PyStr} (hw : Lower words) {t : TagSpelling} (ht : t.WF words) (r : PyStr) {l : List Char}
    (hl : ∀ c, some c ∈ words.map List.head? → c ∈ l) (hs : ∀ c ∈ ['.', '-', '_'], c ∈ l) : Start l (t.text ++ r) := by
  obtain ⟨c, p, hp, hc, -⟩ := phase_head hw ht
  right
  rcases ht.sep with h | ⟨s, h, hsep⟩
  · exact ⟨c, p ++ (t.valueText ++ r), by simp [TagSpelling.text, TagSpelling.body, h, hp], hl _ hc⟩
  · refine ⟨s, t.body ++ r, by simp [TagSpelling.text, h], ?_⟩
    rw [fold_sep s hsep]
    rcases hsep with rfl | rfl | rfl <;> exact hs _ (by simp)

theorem tag_noSepDigit {words : List PyStr} (hw : Lower words) {t : TagSpelling} (ht : t.WF words) (r : PyStr) : NoSepDigit (t.text ++ r) := by
  obtain ⟨c, p, hp, -, hc⟩ := phase_head hw ht
  obtain ⟨h1, h2⟩ := letter_of_fold c hc
  rintro s c' r' h hs
  rcases ht.sep with h' | ⟨s', h', hsep⟩
  · simp only [TagSpelling.text, TagSpelling.body, h', hp, List.nil_append, List.cons_append, List.cons.injEq] at h
    exact absurd (h.1 ▸ hs) h2
  · simp only [TagSpelling.text, TagSpelling.body, h', hp, List.nil_append, List.cons_append, List.cons.injEq] at h
    exact h.2.1 ▸ h1

/-- What follows a phase. -/
theorem value_start {words : List PyStr} {t : TagSpelling} (ht : t.WF words) {r : PyStr} {l : List Char} (hr : Start l r)
    (hs : ∀ c ∈ "0123456789.-_".toList, c ∈ l) : Start l (t.valueText ++ r) := by
  obtain ⟨s, ph, v⟩ := t
  cases v with
  | none => exact hr
  | some x =>
    obtain ⟨s', d⟩ := x
    obtain ⟨hs', hne, hd⟩ := ht.value s' d rfl
    right
    rcases hs' with rfl | ⟨c, rfl, hc⟩
    · cases d with
      | nil => exact absurd rfl hne
      | cons c d =>
        have hc := hd c (by simp)
        refine ⟨c, d ++ r, by simp [TagSpelling.valueText], ?_⟩
        rw [fold_digit c hc]
        have := digit_mem c hc
        have h' : ∀ c ∈ "0123456789".toList, c ∈ "0123456789.-_".toList := by decide
        exact hs c (h' c this)
    · refine ⟨c, d ++ r, by simp [TagSpelling.valueText], ?_⟩
      rw [fold_sep c hc]
      rcases hc with rfl | rfl | rfl <;> exact hs _ (by decide)

theorem Start.head {l : List Char} {r : PyStr} (h : Start l r) {c : Char} {g : PyStr} (e : r.map foldCase = c :: g) : c ∈ l := by
  rcases h with rfl | ⟨c', r', rfl, hc⟩
  · simp at e
  · simp only [List.map_cons, List.cons.injEq] at e
    exact e.1 ▸ hc

theorem find_pre (w : PyStr) (hw : w ∈ preWords) (g : PyStr) (hg : ∀ c g', g = c :: g' → c ∈ followers) :
    preWords.find? (fun x => x.isPrefixOf (w ++ g)) = some w := by
  have hg' : ∀ c g', g = c :: g' → ('l' == c) = false ∧ ('e' == c) = false ∧ ('v' == c) = false := by
    intro c g' e
    have := hg c g' e
    simp only [beq_eq_false_iff_ne]
    refine ⟨?_, ?_, ?_⟩ <;> rintro rfl <;> revert this <;> decide
  simp only [preWords, List.mem_cons, List.not_mem_nil, or_false] at hw
  rcases hw with rfl | rfl | rfl | rfl | rfl | rfl | rfl | rfl <;> cases g with
    | nil => decide
    | cons c g =>
      obtain ⟨h1, h2, h3⟩ := hg' c g rfl
      simp [preWords, List.find?, List.isPrefixOf, h1, h2, h3]

theorem find_post (w : PyStr) (hw : w ∈ postWords) (g : PyStr) (hg : ∀ c g', g = c :: g' → c ∈ followers) :
    postWords.find? (fun x => x.isPrefixOf (w ++ g)) = some w := by
  have hg' : ∀ c g', g = c :: g' → ('e' == c) = false := by
    intro c g' e
    have := hg c g' e
    rw [beq_eq_false_iff_ne]
    rintro rfl
    revert this
    decide
  simp only [postWords, List.mem_cons, List.not_mem_nil, or_false] at hw
  rcases hw with rfl | rfl | rfl <;> cases g with
    | nil => decide
    | cons c g =>
      have h1 := hg' c g rfl
      simp [postWords, List.find?, List.isPrefixOf, h1]

theorem find_dev (w : PyStr) (hw : w ∈ devWords) (g : PyStr) :
    devWords.find? (fun x => x.isPrefixOf (w ++ g)) = some w := by
  simp only [devWords, List.mem_cons, List.not_mem_nil, or_false] at hw
  subst hw
  simp [devWords, List.find?, List.isPrefixOf]

/-- No word starts a string that starts with another character. -/
theorem find_none (words : List PyStr) (g : PyStr) (l : List Char) (hw : Lower words)
    (hl : ∀ c, some c ∈ words.map List.head? → c ∉ l) (hg : ∀ c g', g = c :: g' → c ∈ l) :
    words.find? (fun x => x.isPrefixOf g) = none := by
  rw [List.find?_eq_none]
  intro w hwm hpre
  cases w with
  | nil => exact (hw _ hwm).1 rfl
  | cons x w =>
    cases g with
    | nil => simp [List.isPrefixOf] at hpre
    | cons c g =>
      simp only [List.isPrefixOf, Bool.and_eq_true, beq_iff_eq] at hpre
      have h1 := hg c g rfl
      rw [← hpre.1] at h1
      exact hl x (List.mem_map.2 ⟨_, hwm, rfl⟩) h1

/-- A post word is not the start of a pre word. -/
theorem find_pre_post (w : PyStr) (hw : w ∈ postWords) (g : PyStr) (hg : ∀ c g', g = c :: g' → c ∈ followers) :
    preWords.find? (fun x => x.isPrefixOf (w ++ g)) = none := by
  have hg' : ∀ c g', g = c :: g' → ('c' == c) = false := by
    intro c g' e
    have := hg c g' e
    rw [beq_eq_false_iff_ne]
    rintro rfl
    revert this
    decide
  simp only [postWords, List.mem_cons, List.not_mem_nil, or_false] at hw
  rcases hw with rfl | rfl | rfl <;> cases g with
    | nil => decide
    | cons c g =>
      have h1 := hg' c g rfl
      simp [preWords, List.find?, List.isPrefixOf, h1]

/-! ### reading the parts after the release -/

/-- Local segment. -/
abbrev LocalSpelling := PyStr × List (Char × PyStr)

def devTail (dev : Option TagSpelling) (l : Option LocalSpelling) : PyStr :=
  Spelling.optText TagSpelling.text dev ++ Spelling.localText l
def postTail (post : Option PostSpelling) (dev : Option TagSpelling) (l : Option LocalSpelling) : PyStr :=
  Spelling.optText PostSpelling.text post ++ devTail dev l
def preTail (pre : Option TagSpelling) (post : Option PostSpelling) (dev : Option TagSpelling) (l : Option LocalSpelling) : PyStr :=
  Spelling.optText TagSpelling.text pre ++ postTail post dev l

def DevWF (t : Option TagSpelling) : Prop := ∀ x, t = some x → x.WF devWords
def PostWF (t : Option PostSpelling) : Prop := ∀ x, t = some x → x.WF postWords
def PreWF (t : Option TagSpelling) : Prop := ∀ x, t = some x → x.WF preWords

theorem devTail_start {dev : Option TagSpelling} (hdev : DevWF dev) (l : Option LocalSpelling) : Start ['+', 'd', '.', '-', '_'] (devTail dev l) := by
  cases dev with
  | none => exact (local_start l).mono (by decide)
  | some t => exact tag_start devWords_lower (hdev t rfl) _ (by simp [devWords]) (by decide)

theorem devTail_noSepDigit {dev : Option TagSpelling} (hdev : DevWF dev) (l : Option LocalSpelling) : NoSepDigit (devTail dev l) := by
  cases dev with
  | none => exact local_noSepDigit l
  | some t => exact tag_noSepDigit devWords_lower (hdev t rfl) _

theorem postTail_start {post : Option PostSpelling} {dev : Option TagSpelling} (hpost : PostWF post) (hdev : DevWF dev) (l : Option LocalSpelling) :
    Start ['+', 'd', '.', '-', '_', 'p', 'r'] (postTail post dev l) := by
  cases post with
  | none => exact (devTail_start hdev l).mono (by decide)
  | some t =>
    cases t with
    | implicit d => exact .inr ⟨'-', _, rfl, by decide⟩
    | tag t => exact tag_start postWords_lower (hpost _ rfl) _ (by simp [postWords]) (by decide)

theorem postTail_noSepDigit {post : Option PostSpelling} {dev : Option TagSpelling} (hpost : PostWF post) (hdev : DevWF dev) (l : Option LocalSpelling)
    (hi : ∀ d, post ≠ some (.implicit d)) : NoSepDigit (postTail post dev l) := by
  cases post with
  | none => exact devTail_noSepDigit hdev l
  | some t =>
    cases t with
    | implicit d => exact absurd rfl (hi d)
    | tag t => exact tag_noSepDigit postWords_lower (hpost _ rfl) _

theorem preTail_start {pre : Option TagSpelling} {post : Option PostSpelling} {dev : Option TagSpelling} (hpre : PreWF pre) (hpost : PostWF post)
    (hdev : DevWF dev) (l : Option LocalSpelling) :
    Start ['+', 'd', '.', '-', '_', 'p', 'r', 'a', 'b', 'c'] (preTail pre post dev l) := by
  cases pre with
  | none => exact (postTail_start hpost hdev l).mono (by decide)
  | some t => exact tag_start preWords_lower (hpre _ rfl) _ (by simp [preWords]) (by decide)

theorem preTail_noDotDigit {pre : Option TagSpelling} {post : Option PostSpelling} {dev : Option TagSpelling} (hpre : PreWF pre) (hpost : PostWF post)
    (hdev : DevWF dev) (l : Option LocalSpelling) (c : Char) (r : PyStr) (h : preTail pre post dev l = '.' :: c :: r) : ¬ IsDigit c := by
  cases pre with
  | none =>
    cases post with
    | none => exact devTail_noSepDigit hdev l '.' c r h (.inl rfl)
    | some t =>
      cases t with
      | implicit d => simp [preTail, postTail, Spelling.optText, PostSpelling.text] at h
      | tag t => exact tag_noSepDigit postWords_lower (hpost _ rfl) _ '.' c r h (.inl rfl)
  | some t => exact tag_noSepDigit preWords_lower (hpre t rfl) _ '.' c r h (.inl rfl)

theorem read_dev {dev : Option TagSpelling} (hdev : DevWF dev) (l : Option LocalSpelling) :
    readTag devWords (devTail dev l) = (dev, Spelling.localText l) := by
  cases dev with
  | none =>
    apply readTag_none
    apply find_none devWords _ ['+'] devWords_lower (by simp [devWords])
    intro c g e
    have h : readSep (devTail none l) = ([], Spelling.localText l) := by
      cases l with
      | none => rfl
      | some l => rfl
    rw [h] at e
    exact (local_start l).head e
  | some t =>
    have ht := hdev t rfl
    apply readTag_some devWords_lower t ht _ ((local_start l).noDigit (by decide)) (fun _ => local_noSepDigit l)
    rw [List.append_assoc, List.map_append]
    exact find_dev _ ht.phase _

/-- After a separator that starts a tail there is a letter. -/
theorem read_tag_sep {words : List PyStr} (hw : Lower words) {t : TagSpelling} (ht : t.WF words) (r : PyStr) :
    readSep (t.text ++ r) = (t.sep, t.phase ++ (t.valueText ++ r)) := by
  obtain ⟨c, p, hp, -, hc⟩ := phase_head hw ht
  have e : t.text ++ r = t.sep ++ (t.phase ++ (t.valueText ++ r)) := by simp [TagSpelling.text, TagSpelling.body]
  rw [e]
  apply readSep_of _ _ ht.sep
  rintro - c' r' h
  rw [hp] at h
  simp only [List.cons_append, List.cons.injEq] at h
  exact h.1 ▸ (letter_of_fold c hc).2

/-- Without post release, what remains does not start with a separator and a post phase. -/
theorem devTail_sep {dev : Option TagSpelling} (hdev : DevWF dev) (l : Option LocalSpelling) :
    Start ['+', 'd'] (readSep (devTail dev l)).2 := by
  cases dev with
  | none =>
    have h : readSep (devTail none l) = ([], Spelling.localText l) := by
      cases l with
      | none => rfl
      | some l => rfl
    rw [h]
    exact (local_start l).mono (by decide)
  | some t =>
    have ht := hdev t rfl
    rw [devTail, Spelling.optText, read_tag_sep devWords_lower ht]
    obtain ⟨c, p, hp, hc, -⟩ := phase_head devWords_lower ht
    right
    refine ⟨c, p ++ (t.valueText ++ Spelling.localText l), by simp [hp], ?_⟩
    simp only [devWords, List.map_cons, List.map_nil, List.mem_singleton] at hc
    obtain hc : foldCase c = 'd' := by simpa using hc
    rw [hc]
    decide

/-- Reading a post release: implicit, or a tag. -/
def readPost (s : PyStr) : Option PostSpelling × PyStr :=
  match s with
  | '-' :: s' => if (readDigits s').1 = [] then
      ((readTag postWords s).1.map .tag, (readTag postWords s).2) else (some (.implicit (readDigits s').1), (readDigits s').2)
  | _ => ((readTag postWords s).1.map .tag, (readTag postWords s).2)

theorem readPost_tag {s : PyStr} (h : NoSepDigit s) : readPost s = ((readTag postWords s).1.map .tag, (readTag postWords s).2) := by
  unfold readPost
  split
  · rename_i s'
    have : (readDigits s').1 = [] := by
      cases s' with
      | nil => rfl
      | cons c s' => simp [readDigits, h '-' c s' rfl (by decide)]
    rw [if_pos this]
  · rfl

theorem read_post {post : Option PostSpelling} {dev : Option TagSpelling} (hpost : PostWF post) (hdev : DevWF dev) (l : Option LocalSpelling) :
    readPost (postTail post dev l) = (post, devTail dev l) := by
  cases post with
  | none =>
    rw [readPost_tag (postTail_noSepDigit hpost hdev l (by simp))]
    rw [show postTail none dev l = devTail dev l from rfl]
    rw [readTag_none]
    · rfl
    · apply find_none postWords _ ['+', 'd'] postWords_lower (by simp [postWords])
      intro c g e
      exact (devTail_sep hdev l).head e
  | some t =>
    cases t with
    | implicit d =>
      have hd : Digits d := hpost _ rfl
      have hn : NoDigit (devTail dev l) := (devTail_start hdev l).noDigit (by decide)
      have e : postTail (some (.implicit d)) dev l = '-' :: (d ++ devTail dev l) := rfl
      rw [e, readPost, readDigits_of d _ hd.2 hn, if_neg hd.1]
    | tag t =>
      have ht : t.WF postWords := hpost _ rfl
      rw [readPost_tag (postTail_noSepDigit hpost hdev l (by simp))]
      have e : postTail (some (.tag t)) dev l = t.text ++ devTail dev l := rfl
      have hs := devTail_start hdev l
      rw [e, readTag_some postWords_lower t ht _ (hs.noDigit (by decide)) (fun _ => devTail_noSepDigit hdev l)]
      · rfl
      · rw [List.append_assoc, List.map_append]
        apply find_post _ ht.phase
        intro c g e'
        exact (value_start ht (hs.mono (l' := followers) (by decide)) (by decide)).head e'

theorem read_pre {pre : Option TagSpelling} {post : Option PostSpelling} {dev : Option TagSpelling} (hpre : PreWF pre) (hpost : PostWF post)
    (hdev : DevWF dev) (l : Option LocalSpelling) (hg : ∀ t d, pre = some t → post = some (.implicit d) → t.value ≠ none) :
    readTag preWords (preTail pre post dev l) = (pre, postTail post dev l) := by
  cases pre with
  | none =>
    rw [show preTail none post dev l = postTail post dev l from rfl]
    rw [readTag_none]
    cases post with
    | none =>
      apply find_none preWords _ ['+', 'd'] preWords_lower (by simp [preWords])
      intro c g e
      exact (devTail_sep hdev l).head e
    | some t =>
      cases t with
      | implicit d =>
        have hd : Digits d := hpost _ rfl
        apply find_none preWords _ "0123456789".toList preWords_lower (by simp [preWords])
        intro c g e
        have e' : (readSep (postTail (some (.implicit d)) dev l)).2 = d ++ devTail dev l := rfl
        rw [e'] at e
        obtain ⟨hne, hd⟩ := hd
        cases d with
        | nil => exact absurd rfl hne
        | cons x d =>
          simp only [List.cons_append, List.map_cons, List.cons.injEq] at e
          have hx := hd x (by simp)
          rw [← e.1, fold_digit x hx]
          exact digit_mem x hx
      | tag t =>
        have ht : t.WF postWords := hpost _ rfl
        rw [show postTail (some (.tag t)) dev l = t.text ++ devTail dev l from rfl, read_tag_sep postWords_lower ht, List.map_append]
        apply find_pre_post _ ht.phase
        intro c g e'
        exact (value_start ht ((devTail_start hdev l).mono (l' := followers) (by decide)) (by decide)).head e'
  | some t =>
    have ht := hpre t rfl
    have hs := postTail_start hpost hdev l
    have e : preTail (some t) post dev l = t.text ++ postTail post dev l := rfl
    rw [e, readTag_some preWords_lower t ht _ (hs.noDigit (by decide))]
    · intro hv
      exact postTail_noSepDigit hpost hdev l (fun d hd => hg t d rfl hd hv)
    · rw [List.append_assoc, List.map_append]
      apply find_pre _ ht.phase
      intro c g e'
      exact (value_start ht (hs.mono (l' := followers) (by decide)) (by decide)).head e'

/-! ### the parts at both ends -/

theorem alnum_not_sep (c : Char) (h : IsLetter c ∨ IsDigit c) : ¬ IsSep c := by
  intro hs
  rcases h with h | h
  · rcases hs with rfl | rfl | rfl <;> revert h <;> decide
  · exact digit_not_sep c h hs

/-- A string without characters of a kind, followed by nothing or such a character. -/
theorem cut_unique (P : Char → Prop) [DecidablePred P] {a b r q : PyStr} (ha : ∀ c ∈ a, P c) (hb : ∀ c ∈ b, P c)
    (hr : ∀ c r', r = c :: r' → ¬ P c) (hq : ∀ c r', q = c :: r' → ¬ P c) (h : a ++ r = b ++ q) : a = b ∧ r = q := by
  induction a generalizing b with
  | nil =>
    cases b with
    | nil => exact ⟨rfl, h⟩
    | cons x b => exact absurd (hb x (by simp)) (hr x _ h)
  | cons x a ih =>
    cases b with
    | nil => exact absurd (ha x (by simp)) (hq x _ h.symm)
    | cons y b =>
      simp only [List.cons_append, List.cons.injEq] at h
      obtain ⟨rfl, h⟩ := h
      obtain ⟨rfl, h'⟩ := ih (fun c hc => ha c (List.mem_cons_of_mem _ hc)) (fun c hc => hb c (List.mem_cons_of_mem _ hc)) h
      exact ⟨rfl, h'⟩

theorem digits_unique {a b r q : PyStr} (ha : Digits a) (hb : Digits b) (hr : NoDigit r) (hq : NoDigit q) (h : a ++ r = b ++ q) :
    a = b ∧ r = q := cut_unique IsDigit ha.2 hb.2 hr hq h

def LocalWF (l : LocalSpelling) : Prop := AlphaNum l.1 ∧ ∀ x ∈ l.2, IsSep x.1 ∧ AlphaNum x.2

theorem sepParts_unique : ∀ (l q : List (Char × PyStr)), (∀ x ∈ l, IsSep x.1 ∧ AlphaNum x.2) → (∀ x ∈ q, IsSep x.1 ∧ AlphaNum x.2) →
    (l.map (fun x => x.1 :: x.2)).flatten = (q.map (fun x => x.1 :: x.2)).flatten → l = q := by
  have head : ∀ (l : List (Char × PyStr)), (∀ x ∈ l, IsSep x.1 ∧ AlphaNum x.2) →
      ∀ c r', (l.map (fun x => x.1 :: x.2)).flatten = c :: r' → ¬ (IsLetter c ∨ IsDigit c) := by
    intro l hl c r' h hc
    cases l with
    | nil => simp at h
    | cons x l =>
      simp only [List.map_cons, List.flatten_cons, List.cons_append, List.cons.injEq] at h
      exact alnum_not_sep c hc (h.1 ▸ (hl x (by simp)).1)
  intro l
  induction l with
  | nil =>
    intro q _ _ h
    cases q with
    | nil => rfl
    | cons y q => simp at h
  | cons x l ih =>
    intro q hl hq h
    cases q with
    | nil => simp at h
    | cons y q =>
      simp only [List.map_cons, List.flatten_cons, List.cons_append, List.cons.injEq] at h
      obtain ⟨h1, h2⟩ := h
      have hl' := fun z hz => hl z (List.mem_cons_of_mem _ hz)
      have hq' := fun z hz => hq z (List.mem_cons_of_mem _ hz)
      obtain ⟨h3, h4⟩ := cut_unique (fun c => IsLetter c ∨ IsDigit c) (hl x (by simp)).2.2 (hq y (by simp)).2.2 (head l hl') (head q hq') h2
      rw [ih q hl' hq' h4]
      have : x = y := Prod.ext h1 h3
      rw [this]

theorem localBody_unique {l q : LocalSpelling} (hl : LocalWF l) (hq : LocalWF q) (h : Spelling.localBody l = Spelling.localBody q) : l = q := by
  have head : ∀ (l : List (Char × PyStr)), (∀ x ∈ l, IsSep x.1 ∧ AlphaNum x.2) →
      ∀ c r', (l.map (fun x => x.1 :: x.2)).flatten = c :: r' → ¬ (IsLetter c ∨ IsDigit c) := by
    intro l hl c r' h hc
    cases l with
    | nil => simp at h
    | cons x l =>
      simp only [List.map_cons, List.flatten_cons, List.cons_append, List.cons.injEq] at h
      exact alnum_not_sep c hc (h.1 ▸ (hl x (by simp)).1)
  obtain ⟨h1, h2⟩ := cut_unique (fun c => IsLetter c ∨ IsDigit c) hl.1.2 hq.1.2 (head _ hl.2) (head _ hq.2) h
  exact Prod.ext h1 (sepParts_unique _ _ hl.2 hq.2 h2)

theorem localText_unique {l q : Option LocalSpelling} (hl : ∀ x, l = some x → LocalWF x) (hq : ∀ x, q = some x → LocalWF x)
    (h : Spelling.localText l = Spelling.localText q) : l = q := by
  cases l with
  | none =>
    cases q with
    | none => rfl
    | some q => simp [Spelling.localText, Spelling.optText] at h
  | some l =>
    cases q with
    | none => simp [Spelling.localText, Spelling.optText] at h
    | some q =>
      simp only [Spelling.localText, Spelling.optText, List.cons.injEq, true_and] at h
      rw [localBody_unique (hl l rfl) (hq q rfl) h]

/-- What follows the release. -/
structure AfterRelease (r : PyStr) : Prop where
  start : Start ['+', 'd', '.', '-', '_', 'p', 'r', 'a', 'b', 'c'] r
  dot : ∀ c r', r = '.' :: c :: r' → ¬ IsDigit c

theorem dots_noDigit {l : List PyStr} {r : PyStr} (hr : NoDigit r) : NoDigit ((l.map ('.' :: ·)).flatten ++ r) := by
  cases l with
  | nil => exact hr
  | cons d l =>
    rintro c r' h
    simp only [List.map_cons, List.flatten_cons, List.cons_append, List.cons.injEq] at h
    rw [← h.1]
    decide

theorem dots_unique : ∀ (l q : List PyStr) (r s : PyStr), (∀ d ∈ l, Digits d) → (∀ d ∈ q, Digits d) → AfterRelease r → AfterRelease s →
    (l.map ('.' :: ·)).flatten ++ r = (q.map ('.' :: ·)).flatten ++ s → l = q ∧ r = s := by
  have contra : ∀ (d x r : PyStr), Digits d → AfterRelease r → r ≠ '.' :: (d ++ x) := by
    rintro d x r ⟨hne, hd⟩ hr h
    cases d with
    | nil => exact hne rfl
    | cons c d => exact hr.dot c (d ++ x) h (hd c (by simp))
  intro l
  induction l with
  | nil =>
    intro q r s _ hq hr hs h
    cases q with
    | nil => exact ⟨rfl, h⟩
    | cons d q =>
      simp only [List.map_cons, List.flatten_cons, List.cons_append, List.append_assoc, List.map_nil, List.flatten_nil, List.nil_append] at h
      exact absurd h (contra d _ r (hq d (by simp)) hr)
  | cons d l ih =>
    intro q r s hl hq hr hs h
    cases q with
    | nil =>
      simp only [List.map_cons, List.flatten_cons, List.cons_append, List.append_assoc, List.map_nil, List.flatten_nil, List.nil_append] at h
      exact absurd h.symm (contra d _ s (hl d (by simp)) hs)
    | cons e q =>
      simp only [List.map_cons, List.flatten_cons, List.cons_append, List.append_assoc, List.cons.injEq, true_and] at h
      obtain ⟨rfl, h'⟩ := digits_unique (hl d (by simp)) (hq e (by simp)) (dots_noDigit (hr.start.noDigit (by decide)))
        (dots_noDigit (hs.start.noDigit (by decide))) h
      obtain ⟨rfl, h''⟩ := ih q r s (fun x hx => hl x (List.mem_cons_of_mem _ hx)) (fun x hx => hq x (List.mem_cons_of_mem _ hx)) hr hs h'
      exact ⟨rfl, h''⟩

theorem release_unique {m n : PyStr} {l q : List PyStr} {r s : PyStr} (hm : Digits m) (hn : Digits n) (hl : ∀ d ∈ l, Digits d)
    (hq : ∀ d ∈ q, Digits d) (hr : AfterRelease r) (hs : AfterRelease s)
    (h : Spelling.releaseText m l ++ r = Spelling.releaseText n q ++ s) : m = n ∧ l = q ∧ r = s := by
  unfold Spelling.releaseText at h
  rw [List.append_assoc, List.append_assoc] at h
  obtain ⟨rfl, h'⟩ := digits_unique hm hn (dots_noDigit (hr.start.noDigit (by decide))) (dots_noDigit (hs.start.noDigit (by decide))) h
  obtain ⟨rfl, h''⟩ := dots_unique l q r s hl hq hr hs h'
  exact ⟨rfl, rfl, h''⟩

theorem epoch_unique {e f : Option PyStr} {m n : PyStr} {l q : List PyStr} {r s : PyStr} (he : ∀ d, e = some d → Digits d)
    (hf : ∀ d, f = some d → Digits d) (hm : Digits m) (hn : Digits n)
    (hr : AfterRelease r) (hs : AfterRelease s)
    (h : Spelling.epochText e ++ (Spelling.releaseText m l ++ r) = Spelling.epochText f ++ (Spelling.releaseText n q ++ s)) :
    e = f ∧ Spelling.releaseText m l ++ r = Spelling.releaseText n q ++ s := by
  have bang : ∀ x : PyStr, NoDigit ('!' :: x) := by
    rintro x c r' ⟨⟩
    decide
  have contra : ∀ (d x m : PyStr) (l : List PyStr) (r : PyStr), Digits d → Digits m → AfterRelease r →
      d ++ '!' :: x ≠ m ++ ((l.map ('.' :: ·)).flatten ++ r) := by
    intro d x m l r hd hm hr h
    obtain ⟨-, h'⟩ := digits_unique hd hm (bang x) (dots_noDigit (hr.start.noDigit (by decide))) h
    cases l with
    | nil =>
      rcases hr.start with h0 | ⟨c, r', h0, hc⟩
      · simp [h0] at h'
      · simp only [List.map_nil, List.flatten_nil, List.nil_append, h0, List.cons.injEq] at h'
        rw [← h'.1] at hc
        revert hc
        decide
    | cons y l => simp at h'
  cases e with
  | none =>
    cases f with
    | none => exact ⟨rfl, h⟩
    | some f =>
      simp only [Spelling.epochText, Spelling.optText, Spelling.releaseText, List.append_assoc, List.nil_append, List.cons_append] at h
      exact absurd h.symm (contra _ _ _ _ _ (hf f rfl) hm hr)
  | some e =>
    cases f with
    | none =>
      simp only [Spelling.epochText, Spelling.optText, Spelling.releaseText, List.append_assoc, List.nil_append, List.cons_append] at h
      exact absurd h (contra _ _ _ _ _ (he e rfl) hn hs)
    | some f =>
      simp only [Spelling.epochText, Spelling.optText, List.append_assoc, List.cons_append, List.nil_append] at h
      obtain ⟨rfl, h'⟩ := digits_unique (he e rfl) (hf f rfl) (bang _) (bang _) h
      simp only [List.cons.injEq, true_and] at h'
      exact ⟨rfl, h'⟩

/-- The start of what follows the leading v. -/
theorem head_digit {e : Option PyStr} {m : PyStr} {l : List PyStr} {r : PyStr} (he : ∀ d, e = some d → Digits d) (hm : Digits m) :
    ∃ c r', Spelling.epochText e ++ (Spelling.releaseText m l ++ r) = c :: r' ∧ IsDigit c := by
  cases e with
  | none =>
    obtain ⟨hne, hd⟩ := hm
    cases m with
    | nil => exact absurd rfl hne
    | cons c m => exact ⟨c, _, rfl, hd c (by simp)⟩
  | some d =>
    obtain ⟨hne, hd⟩ := he d rfl
    cases d with
    | nil => exact absurd rfl hne
    | cons c d => exact ⟨c, _, rfl, hd c (by simp)⟩

theorem v_unique {v w x y : PyStr} (hv : v = [] ∨ v = ['v'] ∨ v = ['V']) (hw : w = [] ∨ w = ['v'] ∨ w = ['V'])
    (hx : ∃ c r', x = c :: r' ∧ IsDigit c) (hy : ∃ c r', y = c :: r' ∧ IsDigit c) (h : v ++ x = w ++ y) : v = w ∧ x = y := by
  obtain ⟨c, r, rfl, hc⟩ := hx
  obtain ⟨d, s, rfl, hd⟩ := hy
  have hv' : ¬ IsDigit 'v' := by decide
  have hV' : ¬ IsDigit 'V' := by decide
  rcases hv with rfl | rfl | rfl <;> rcases hw with rfl | rfl | rfl <;>
    simp only [List.nil_append, List.cons_append, List.cons.injEq] at h
  · exact ⟨rfl, by rw [h.1, h.2]⟩
  · exact absurd (h.1 ▸ hc) hv'
  · exact absurd (h.1 ▸ hc) hV'
  · exact absurd (h.1 ▸ hd) hv'
  · exact ⟨rfl, by rw [h.2.1, h.2.2]⟩
  · exact absurd h.1 (by decide)
  · exact absurd (h.1 ▸ hd) hV'
  · exact absurd h.1 (by decide)
  · exact ⟨rfl, by rw [h.2.1, h.2.2]⟩

/-- A version string has only one greedy spelling. -/
theorem text_injective {p q : Spelling} (hp : p.WF) (hq : q.WF) (gp : p.Greedy) (gq : q.Greedy) (h : p.text = q.text) : p = q := by
  obtain ⟨v, e, m, l, pre, post, dev, loc⟩ := p
  obtain ⟨v', e', m', l', pre', post', dev', loc'⟩ := q
  have et : ∀ v e m l pre post dev loc, (Spelling.mk v e m l pre post dev loc).text =
      v ++ (Spelling.epochText e ++ (Spelling.releaseText m l ++ preTail pre post dev loc)) := by
    intros
    simp [Spelling.text, preTail, postTail, devTail]
  rw [et, et] at h
  have gp : ∀ t d, pre = some t → post = some (.implicit d) → t.value ≠ none := gp
  have gq : ∀ t d, pre' = some t → post' = some (.implicit d) → t.value ≠ none := gq
  obtain ⟨hv, he, hm, hl, hpre, hpost, hdev, hloc⟩ := hp
  obtain ⟨hv', he', hm', hl', hpre', hpost', hdev', hloc'⟩ := hq
  dsimp only at hv he hm hl hpre hpost hdev hloc hv' he' hm' hl' hpre' hpost' hdev' hloc'
  have ar : AfterRelease (preTail pre post dev loc) := ⟨preTail_start hpre hpost hdev loc, preTail_noDotDigit hpre hpost hdev loc⟩
  have ar' : AfterRelease (preTail pre' post' dev' loc') := ⟨preTail_start hpre' hpost' hdev' loc', preTail_noDotDigit hpre' hpost' hdev' loc'⟩
  obtain ⟨rfl, h1⟩ := v_unique hv hv' (head_digit he hm) (head_digit he' hm') h
  obtain ⟨rfl, h2⟩ := epoch_unique he he' hm hm' ar ar' h1
  obtain ⟨rfl, rfl, h3⟩ := release_unique hm hm' hl hl' ar ar' h2
  have r1 := read_pre hpre hpost hdev loc gp
  rw [h3, read_pre hpre' hpost' hdev' loc' gq] at r1
  obtain ⟨rfl, h4⟩ := Prod.mk.inj r1
  have r2 := read_post hpost hdev loc
  rw [← h4, read_post hpost' hdev' loc'] at r2
  obtain ⟨rfl, h5⟩ := Prod.mk.inj r2
  have r3 := read_dev hdev loc
  rw [← h5, read_dev hdev' loc'] at r3
  obtain ⟨rfl, h6⟩ := Prod.mk.inj r3
  rw [localText_unique hloc' hloc h6]

/-- `VERSION.fullmatch` on the text of a greedy spelling. -/
theorem fullmatch_text {p : Spelling} (hp : p.WF) (gp : p.Greedy) : Re.fullmatch Pattern.version p.text = some p.caps := by
  obtain ⟨c, hc⟩ := Re.fullmatch_some ((version_iff _ _).2 ⟨p, hp, rfl, rfl⟩)
  obtain ⟨q, hq, gq, e, rfl⟩ := fullmatch_version hc
  rw [hc, text_injective hp hq gp gq e]

end Verif
