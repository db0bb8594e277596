import Verif.Proofs.ParserBy
/-!
# Parsing specifiers under a limit on the number of digits
-/

namespace Verif
open Re

/-! ### the clauses -/

theorem splitAt_eq_splitOnP (p : Char → Bool) (s : PyStr) : splitAt p s = s.splitOnP p := by
  induction s with
  | nil => simp [splitAt]
  | cons c s ih =>
    rw [splitAt, List.splitOnP_cons_eq_if_modifyHead, ih]
    by_cases hc : p c
    · simp [hc]
    · simp only [hc, if_false, Bool.false_eq_true]
      cases h : s.splitOnP p with
      | nil => exact absurd h (List.splitOnP_ne_nil _ _)
      | cons x l => simp

theorem splitAt_congr {p q : Char → Bool} {s : PyStr} (h : ∀ c ∈ s, p c = q c) : splitAt p s = splitAt q s := by
  induction s with
  | nil => rfl
  | cons c s ih => rw [splitAt, splitAt, h c (by simp), ih (fun x hx => h x (List.mem_cons_of_mem _ hx))]

theorem splitAt_none {p : Char → Bool} {s w : PyStr} (h : w ∈ splitAt p s) : ∀ c ∈ w, p c = false := by
  induction s generalizing w with
  | nil =>
    rw [splitAt, List.mem_singleton] at h
    subst h
    simp
  | cons x s ih =>
    rw [splitAt] at h
    by_cases hx : p x
    · rw [if_pos hx] at h
      rcases List.mem_cons.1 h with rfl | h
      · simp
      · exact ih h
    · rw [if_neg hx] at h
      cases hs : splitAt p s with
      | nil =>
        rw [hs] at h
        rw [List.mem_singleton] at h
        subst h
        simpa using hx
      | cons y l =>
        rw [hs] at h ih
        rcases List.mem_cons.1 h with rfl | h
        · intro c hc
          rcases List.mem_cons.1 hc with rfl | hc
          · simpa using hx
          · exact ih (by simp) c hc
        · exact ih (List.mem_cons_of_mem _ h)

/-- Commas and pipes. -/
def cutChar (c : Char) : Bool := decide (c = ',' ∨ c = '|')

theorem splitOnP_pipes (F : PyStr → Prop) (h0 : F []) (l : List (Bool × PyStr)) : ∀ a : PyStr,
    (∀ w ∈ (pipes a l).splitOnP cutChar, F w) ↔ ∀ g ∈ a :: l.map (·.2), ∀ w ∈ g.splitOnP cutChar, F w := by
  induction l with
  | nil => intro a; simp [pipes]
  | cons x l ih =>
    intro a
    obtain ⟨d, b⟩ := x
    have e : ∀ w, w ∈ (pipes a ((d, b) :: l)).splitOnP cutChar ↔ w ∈ a.splitOnP cutChar ∨ (d = true ∧ w = []) ∨ w ∈ (pipes b l).splitOnP cutChar := by
      intro w
      cases d with
      | false =>
        have : pipes a ((false, b) :: l) = a ++ '|' :: pipes b l := by simp [pipes]
        rw [this, List.splitOnP_append_cons _ _ (by decide), List.mem_append]
        simp
      | true =>
        have : pipes a ((true, b) :: l) = a ++ '|' :: ([] ++ '|' :: pipes b l) := by simp [pipes]
        rw [this, List.splitOnP_append_cons _ _ (by decide), List.splitOnP_append_cons _ _ (by decide), List.mem_append, List.mem_append]
        simp
    have ih' := ih b
    rw [List.map_cons, List.forall_mem_cons, ← ih']
    constructor
    · intro h
      exact ⟨fun w hw => h w ((e w).2 (.inl hw)), fun w hw => h w ((e w).2 (.inr (.inr hw)))⟩
    · rintro ⟨h1, h2⟩ w hw
      rcases (e w).1 hw with h | ⟨-, rfl⟩ | h
      · exact h1 w h
      · exact h0
      · exact h2 w h

/-- What holds for the empty string and all specClauses holds for all the parts that are parsed. -/
theorem forall_clauses (F : PyStr → Prop) (h0 : F []) (s : PyStr) :
    (∀ w ∈ specClauses s, F w) ↔ ∀ g ∈ splitPipes (clearWhitespace s), ∀ w ∈ splitComma g, F w := by
  have hc : specClauses s = (clearWhitespace s).splitOnP cutChar := by rw [clearWhitespace_eq]; rfl
  rw [hc]
  generalize clearWhitespace s = t
  obtain ⟨a, l, e, hs⟩ := pipe_parts t
  have hg : ∀ g ∈ splitPipes t, splitComma g = g.splitOnP cutChar := by
    intro g hg
    rw [← splitAt_eq_splitOnP]
    refine splitAt_congr fun c hc => ?_
    have : decide (c = '|') = false := splitAt_none (p := (· = '|')) hg c hc
    have hne : c ≠ '|' := by simpa using this
    simp [cutChar, hne]
  have := splitOnP_pipes F h0 l a
  rw [← e, ← hs] at this
  rw [this]
  exact ⟨fun h g hg' w hw => h g hg' w (hg g hg' ▸ hw), fun h g hg' w hw => h g hg' w ((hg g hg').symm ▸ hw)⟩

/-! ### wildcards -/

/-- The string does not end in a digit. -/
def LastND (s : PyStr) : Prop := ∀ b c, s = b ++ [c] → ¬ IsDigit c

theorem lastND_append (a : PyStr) {b : PyStr} (hne : b ≠ []) (hb : ∀ c ∈ b, ¬ IsDigit c) : LastND (a ++ b) := by
  intro x c e
  rcases List.eq_nil_or_concat b with rfl | ⟨b', c', rfl⟩
  · exact absurd rfl hne
  · rw [List.concat_eq_append, ← List.append_assoc] at e
    obtain ⟨-, h⟩ := List.append_inj' e rfl
    cases h
    exact hb _ (by simp)

theorem lastND_none {b : PyStr} (hb : ∀ c ∈ b, ¬ IsDigit c) : LastND b := by
  intro x c e
  exact hb c (by rw [e]; simp)

theorem runs_append {a : PyStr} (ha : LastND a) (b : PyStr) : runs (a ++ b) = runs a ++ runs b := by
  rcases List.eq_nil_or_concat a with rfl | ⟨a', x, rfl⟩
  · rw [List.nil_append, runs_nil, List.nil_append]
  · have hx := ha a' x (by simp)
    have split : ∀ b, runs (a' ++ x :: b) = runs a' ++ runs b := by
      intro b
      unfold runs
      rw [List.splitOnP_append_cons _ _ (by simp [hx]), List.filter_append]
    have e : ∀ b, a'.concat x ++ b = a' ++ x :: b := by intro b; simp
    rw [e, split]
    have := split []
    rw [List.concat_eq_append, this, runs_nil, List.append_nil]

theorem text_zero {p : Spelling} (hp : p.WF) (hz : p.EndsInZero) : ∃ a, p.text = a ++ ['0'] ∧ LastND a := by
  have tag : ∀ (words : List PyStr), Lower words → ∀ (a : PyStr) (t : TagSpelling), t.WF words → Spelling.TagZero t → ∃ b, a ++ t.text = b ++ ['0'] ∧ LastND b := by
    intro words hw a t ht hz
    obtain ⟨h1, h2⟩ := phase_not_digit hw ht
    have h3 := optSep_not_digit ht.sep
    obtain ⟨s, q, v⟩ := t
    obtain ⟨s', rfl⟩ := hz
    obtain ⟨h4, -⟩ := ht.value s' ['0'] rfl
    refine ⟨a ++ (s ++ (q ++ s')), by simp [TagSpelling.text, TagSpelling.body, TagSpelling.valueText], lastND_append _ ?_ ?_⟩
    · simp only [ne_eq, List.append_eq_nil_iff, not_and]
      exact fun _ h _ => h1 h
    · intro c hc
      rcases List.mem_append.1 hc with hc | hc
      · exact h3 c hc
      · rcases List.mem_append.1 hc with hc | hc
        · exact h2 c hc
        · exact optSep_not_digit h4 c hc
  obtain ⟨v, e, m, l, a, b, d, loc⟩ := p
  obtain ⟨hloc, hz⟩ := hz
  dsimp only at hloc hz
  subst hloc
  simp only [Spelling.text, Spelling.localText, Spelling.optText, List.append_nil]
  cases d with
  | some t =>
    have hz : Spelling.TagZero t := by simpa using hz
    exact tag _ devWords_lower _ t (hp.dev t rfl) hz
  | none =>
    cases b with
    | some b =>
      cases b with
      | implicit d =>
        have hz : d = ['0'] := by cases a <;> simpa using hz
        subst hz
        have : ∀ x : PyStr, x ++ PostSpelling.text (.implicit ['0']) = (x ++ ['-']) ++ ['0'] := by
          intro x
          simp [PostSpelling.text]
        simp only [List.append_nil]
        rw [this]
        exact ⟨_, rfl, lastND_append _ (by simp) (by decide)⟩
      | tag t =>
        have hz : Spelling.TagZero t := by cases a <;> simpa using hz
        simp only [List.append_nil, PostSpelling.text]
        exact tag _ postWords_lower _ t (hp.post _ rfl) hz
    | none =>
      simp only [List.append_nil]
      cases a with
      | some t =>
        have hz : Spelling.TagZero t := by simpa using hz
        exact tag _ preWords_lower _ t (hp.pre t rfl) hz
      | none =>
        dsimp only at hz
        simp only [List.append_nil]
        rcases List.eq_nil_or_concat l with rfl | ⟨l', x, rfl⟩
        · have hz : m = ['0'] := by simpa using hz
          subst hz
          refine ⟨v ++ Spelling.epochText e, by simp [Spelling.releaseText], ?_⟩
          cases e with
          | none =>
            refine lastND_none ?_
            have : Spelling.epochText none = [] := rfl
            rw [this, List.append_nil]
            rcases hp.v with h | h | h <;> (dsimp only at h; rw [h]; decide)
          | some d =>
            have : Spelling.epochText (some d) = d ++ ['!'] := rfl
            rw [this, ← List.append_assoc]
            exact lastND_append _ (by simp) (by decide)
        · have hz : x = ['0'] := by simpa using hz
          subst hz
          have : v ++ Spelling.epochText e ++ Spelling.releaseText m (l' ++ [['0']]) = (v ++ Spelling.epochText e ++ Spelling.releaseText m l' ++ ['.']) ++ ['0'] := by
            simp [release_snoc]
          simp only [List.concat_eq_append]
          rw [this]
          exact ⟨_, rfl, lastND_append _ (by simp) (by decide)⟩

theorem numerals_public {s : PyStr} (hs : ∀ c ∈ s, c ≠ '+') : numerals s = runs s := by
  obtain ⟨h1, h2⟩ := takeWhile_all (p := fun c => decide (c ≠ '+')) (a := s) (fun c hc => by simpa using hs c hc) [] (by simp)
  rw [List.append_nil] at h1 h2
  unfold numerals
  rw [h1, h2, List.filter_append]
  have : (List.filter (fun d => decide (Digits d)) (List.splitOnP (fun c => decide (IsSep c)) (List.drop 1 ([] : PyStr)))) = [] := by decide
  rw [this, List.append_nil]
  rfl

/-- A wildcard does not count. -/
theorem fits_wild (limit : Nat) {p : Spelling} (hp : p.WF) (hz : p.EndsInZero) {o : PyStr} (ho : ∀ c ∈ o, IsOpChar c) {c : Char} (hc : IsWildcard c) :
    FitsText limit (o ++ p.wild c) ↔ FitsText limit p.text := by
  obtain ⟨a, e, ha⟩ := text_zero hp hz
  have hop : ∀ c ∈ o, ¬ IsDigit c ∧ c ≠ '+' := by
    intro c hc
    refine ⟨fun h => opChar_not_digit c h (ho c hc), ?_⟩
    rintro rfl
    exact absurd (ho _ hc) (by decide)
  have ew : p.wild c = a ++ [c] := by rw [Spelling.wild, e, List.dropLast_concat]
  have hpub : ∀ x ∈ p.text, x ≠ '+' := fun x hx => (Specifier.public_chars hp hz.1 hx).2
  have hcd : ¬ IsDigit c ∧ c ≠ '+' := by rcases hc with rfl | rfl | rfl <;> decide
  have h1 : numerals p.text = runs a ++ [['0']] := by
    rw [numerals_public hpub, e, runs_append ha]
    rfl
  have h2 : numerals (o ++ p.wild c) = runs a := by
    rw [numerals_public, ew, runs_skip (fun x hx => (hop x hx).1), runs_append ha, runs_cons hcd.1, runs_nil, List.append_nil]
    intro x hx
    rw [ew] at hx
    rcases List.mem_append.1 hx with hx | hx
    · exact (hop x hx).2
    · rcases List.mem_append.1 hx with hx | hx
      · exact hpub x (by rw [e]; simp [hx])
      · rw [List.mem_singleton] at hx
        exact hx ▸ hcd.2
  unfold FitsText
  rw [h1, h2]
  constructor
  · rintro (h | h)
    · exact .inl h
    · by_cases h0 : limit = 0
      · exact .inl h0
      · refine .inr fun d hd => ?_
        rcases List.mem_append.1 hd with hd | hd
        · exact h d hd
        · rw [List.mem_singleton] at hd
          subst hd
          simp only [List.length_singleton]
          omega
  · rintro (h | h)
    · exact .inl h
    · exact .inr fun d hd => h d (List.mem_append_left _ hd)

/-! ### parts -/

/-- What the limit does to a result `x`: nothing if everything fits (`F`); otherwise success becomes `ValueError`, and failures
stay as they are or become `ValueError`. -/
structure Limited {α : Type} (F : Prop) (x y : Except PyErr α) : Prop where
  same : F → y = x
  fails : ¬ F → (∃ a, x = .ok a) → y = .error .valueError
  errors : ∀ e, x = .error e → y = .error e ∨ y = .error .valueError

theorem Limited.bind {α β : Type} {F : Prop} {x y : Except PyErr α} (h : Limited F x y) (f : α → Except PyErr β) :
    Limited F (x >>= f) (y >>= f) := by
  refine ⟨fun hF => by rw [h.same hF], fun hF ⟨b, hb⟩ => ?_, fun e he => ?_⟩
  · cases x with
    | error e => cases hb
    | ok a => rw [h.fails hF ⟨a, rfl⟩]; rfl
  · cases x with
    | error e' =>
      cases he
      rcases h.errors _ rfl with h | h <;> rw [h]
      · exact .inl rfl
      · exact .inr rfl
    | ok a =>
      by_cases hF : F
      · rw [h.same hF]; exact .inl he
      · rw [h.fails hF ⟨a, rfl⟩]; exact .inr rfl

theorem Limited.mapAll {α β : Type} {F : α → Prop} {f g : α → Except PyErr β} (l : List α) (h : ∀ a ∈ l, Limited (F a) (f a) (g a)) :
    Limited (∀ a ∈ l, F a) (Verif.mapAll f l) (Verif.mapAll g l) := by
  induction l with
  | nil => exact ⟨fun _ => rfl, fun h => absurd (by simp) h, fun e he => by cases he⟩
  | cons a l ih =>
    have ih := ih (fun x hx => h x (List.mem_cons_of_mem _ hx))
    have ha := h a (by simp)
    rw [Verif.mapAll, Verif.mapAll]
    refine ⟨fun hF => ?_, fun hF hx => ?_, fun e he => ?_⟩
    · rw [ha.same (hF a (by simp)), ih.same (fun x hx => hF x (List.mem_cons_of_mem _ hx))]
    · cases hfa : f a with
      | error e => rw [hfa] at hx; obtain ⟨_, hx⟩ := hx; cases hx
      | ok b =>
        cases hfl : Verif.mapAll f l with
        | error e => rw [hfa, hfl] at hx; obtain ⟨_, hx⟩ := hx; cases hx
        | ok bs =>
          by_cases hFa : F a
          · rw [ha.same hFa, hfa, ih.fails (fun hl => hF (List.forall_mem_cons.2 ⟨hFa, hl⟩)) ⟨bs, hfl⟩]
            rfl
          · rw [ha.fails hFa ⟨b, hfa⟩]
            rfl
    · cases hfa : f a with
      | error e' =>
        rw [hfa] at he
        cases he
        rcases ha.errors _ hfa with h | h <;> rw [h]
        · exact .inl rfl
        · exact .inr rfl
      | ok b =>
        by_cases hFa : F a
        · rw [hfa] at he
          rw [ha.same hFa, hfa]
          cases hfl : Verif.mapAll f l with
          | error e' =>
            rw [hfl] at he
            cases he
            rcases ih.errors _ hfl with h | h <;> rw [h]
            · exact .inl rfl
            · exact .inr rfl
          | ok bs => rw [hfl] at he; cases he
        · rw [ha.fails hFa ⟨b, hfa⟩]
          exact .inr rfl

/-- A version. -/
theorem limited_version (limit : Nat) (s : PyStr) : Limited (FitsText limit s) (Version.parse s) (Version.parseMax limit s) := by
  rw [parseMax_eq]
  refine ⟨fun h => ?_, fun h ⟨v, hv⟩ => ?_, fun e he => ?_⟩
  · cases Version.parse s <;> simp [h]
  · rw [hv]
    simp [h]
  · rw [he]
    exact .inl rfl

namespace Specifier

theorem limited_single (limit : Nat) (s : PyStr) : Limited (FitsText limit s) (parseSingle s) (parseSingleBy (Version.parseMax limit) s) := by
  have hd : parseSingle s = parseSingleBy Version.parse s := rfl
  rw [hd]
  have ops : (∀ e ∈ compareWords, ∀ c ∈ e.1, IsOpChar c) ∧ (∀ e ∈ equalWords, ∀ c ∈ e.1, IsOpChar c) ∧ (∀ e ∈ wildcardWords, ∀ c ∈ e.1, IsOpChar c) := by
    decide
  have skip : ∀ {o : PyStr} {p : Spelling}, (∀ c ∈ o, IsOpChar c) → p.WF → (FitsText limit (o ++ p.text) ↔ FitsText limit p.text) := by
    intro o p ho hp
    rw [fitsText_iff limit hp ho]
    have := fitsText_iff limit hp (o := []) (by simp)
    rw [List.nil_append] at this
    rw [this]
  rcases single_by s with ⟨-, h⟩ | ⟨o, t, p, ho, hp, hl, rfl, h⟩ | ⟨o, t, p, ho, hp, rfl, h⟩ | ⟨o, t, p, c, ho, hp, hz, hc, rfl, h⟩ |
    ⟨o, t, p, ho, hp, hz, rfl, h⟩ <;> rw [h Version.parse, h (Version.parseMax limit)]
  · exact ⟨fun _ => rfl, (fun _ ⟨_, hx⟩ => by cases hx), fun e he => .inl he⟩
  · rw [skip (ops.1 _ ho) hp]
    exact (limited_version limit p.text).bind (mkOne t)
  · rw [skip (ops.2.1 _ ho) hp]
    exact (limited_version limit p.text).bind (mkOne t)
  · rw [fits_wild limit hp hz (ops.2.2 _ ho) (hc.elim .inl (fun h => .inr (.inr h)))]
    exact (limited_version limit p.text).bind (mkOne t)
  · have h1 : Version.parse (p.wild 'X') = .error .parseVersionError :=
      (parse_no_spelling _).2 (fun ⟨q, hq, e⟩ => text_ne_wild hq hp hz (.inr (.inl rfl)) e.symm)
    have h2 : Version.parseMax limit (p.wild 'X') = .error .parseVersionError := by rw [parseMax_eq, h1]
    unfold makeOneBy
    rw [h1, h2]
    exact ⟨fun _ => rfl, (fun _ ⟨_, hx⟩ => by cases hx), fun e he => .inl he⟩

theorem limited_parse (limit : Nat) (s : PyStr) : Limited (∀ w ∈ specClauses s, FitsText limit w) (parse s) (parseMax limit s) := by
  have h0 : FitsText limit [] := .inr (by
    have : numerals [] = [] := by decide
    simp [this])
  rw [forall_clauses _ h0]
  unfold parse parseMax parseBy parseAny parseAnyBy
  generalize clearWhitespace s = t
  have h1 : ∀ g ∈ splitPipes t, Limited (∀ w ∈ splitComma g, FitsText limit w) (parseAll g) (parseAllBy (Version.parseMax limit) g) := by
    intro g _
    exact (Limited.mapAll (splitComma g) (fun w _ => limited_single limit w)).bind allOf
  exact (Limited.mapAll (splitPipes t) h1).bind anyOf

end Specifier
end Verif
