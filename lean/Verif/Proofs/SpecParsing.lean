import Verif.Proofs.Wildcard
/-!
# Parsing single specifiers
-/

namespace Verif

open Re

/-- The characters of operators. -/
def IsOpChar (c : Char) : Prop := c ∈ "<>=!~^".toList
instance (c : Char) : Decidable (IsOpChar c) := inferInstanceAs (Decidable (c ∈ _))

theorem opChar_not_digit (c : Char) (h : IsDigit c) : ¬ IsOpChar c := by
  have : ∀ c ∈ "0123456789".toList, ¬ IsOpChar c := by decide
  exact this c (digit_mem c h)

theorem lang_lits (s : String) (w : PyStr) : Lang (lits s) w ↔ w = s.toList := by
  unfold lits
  generalize s.toList = l
  have : ∀ (l : List Char) (w : PyStr), Lang (seqs (l.map lit)) w ↔ w = l := by
    intro l
    induction l with
    | nil =>
      intro w
      exact ⟨fun ⟨c, h⟩ => h.1, fun h => ⟨[], h, rfl⟩⟩
    | cons x l ih =>
      intro w
      cases l with
      | nil => exact lang_lit x w
      | cons y l =>
        have e : seqs ((x :: y :: l).map lit) = seq (lit x) (seqs ((y :: l).map lit)) := rfl
        rw [e, lang_seq]
        simp only [ih, lang_lit]
        constructor
        · rintro ⟨_, _, rfl, rfl, rfl⟩
          rfl
        · rintro rfl
          exact ⟨_, _, rfl, rfl, rfl⟩
  exact this l w

/-- What a pattern of an operator and a version captures. -/
theorem get_pair {a b : Re} {s : PyStr} {c : Caps} (ha : groups a = []) (hb : Grp.operator ∉ groups b)
    (h : Matches (seqs [group .operator a, group .version b]) s c) :
    ∃ o w, s = o ++ w ∧ Lang a o ∧ Lang b w ∧ get .operator c = some o ∧ get .version c = some w := by
  obtain ⟨o, w, c1, c2, rfl, rfl, ⟨c3, m1, rfl⟩, ⟨c4, m2, rfl⟩⟩ := h
  refine ⟨o, w, rfl, ⟨_, m1⟩, ⟨_, m2⟩, ?_, ?_⟩
  · rw [get_append, get_cons, get_none m2 hb, get_cons]
    simp
  · rw [get_append, get_cons]
    simp

/-- What a pattern of an optional operator and a version captures. -/
theorem get_optPair {a b : Re} {s : PyStr} {c : Caps} (ha : groups a = []) (hb : Grp.operator ∉ groups b)
    (h : Matches (seqs [opt (group .operator a), group .version b]) s c) :
    ∃ o w, s = o ++ w ∧ Lang b w ∧ get .version c = some w ∧ ((Lang a o ∧ get .operator c = some o) ∨ (o = [] ∧ get .operator c = none)) := by
  obtain ⟨o, w, c1, c2, rfl, rfl, ⟨c3, m1, rfl⟩ | ⟨rfl, rfl⟩, ⟨c4, m2, rfl⟩⟩ := h
  · refine ⟨o, w, rfl, ⟨_, m2⟩, ?_, .inl ⟨⟨_, m1⟩, ?_⟩⟩
    · rw [get_append, get_cons]
      simp
    · rw [get_append, get_cons, get_none m2 hb, get_cons]
      simp
  · refine ⟨[], w, rfl, ⟨_, m2⟩, ?_, .inr ⟨rfl, ?_⟩⟩
    · rw [get_append, get_cons]
      simp
    · rw [get_append, get_cons, get_none m2 hb]
      simp

theorem lang_version (w : PyStr) : Lang Pattern.version w ↔ ∃ p : Spelling, p.WF ∧ w = p.text :=
  ⟨fun ⟨c, m⟩ => by obtain ⟨p, hp, h, -⟩ := (version_iff w c).1 m; exact ⟨p, hp, h⟩, fun ⟨p, hp, h⟩ => ⟨_, (version_iff w _).2 ⟨p, hp, h, rfl⟩⟩⟩

theorem lang_public (w : PyStr) : Lang Pattern.publicVersion w ↔ ∃ p : Spelling, p.WF ∧ p.local_ = none ∧ w = p.text := public_iff w

/-- A version does not start like an operator. -/
theorem text_no_op {p : Spelling} (hp : p.WF) : ∀ c r, p.text = c :: r → ¬ IsOpChar c := by
  intro c r h
  rcases hp.v with hv | hv | hv
  · obtain ⟨c', r', e, hd⟩ := text_head hp hv
    rw [h] at e
    cases e
    exact opChar_not_digit c hd
  · rw [Spelling.text, hv] at h
    cases h
    decide
  · rw [Spelling.text, hv] at h
    cases h
    decide

theorem wild_no_op {p : Spelling} (hp : p.WF) {x : Char} (hx : IsWildcard x) : ∀ c r, p.wild x = c :: r → ¬ IsOpChar c := by
  intro c r h
  unfold Spelling.wild at h
  cases ht : p.text.dropLast with
  | nil =>
    rw [ht] at h
    cases h
    rcases hx with rfl | rfl | rfl <;> decide
  | cons y r' =>
    rw [ht] at h
    cases h
    have hne : p.text ≠ [] := by
      intro e
      rw [e] at ht
      cases ht
    have : p.text.dropLast ++ [p.text.getLast hne] = p.text := List.dropLast_concat_getLast hne
    generalize p.text.getLast hne = z at this
    rw [ht] at this
    exact text_no_op hp _ _ this.symm

/-- Operators are cut off in only one way. -/
theorem op_unique {o o' w w' : PyStr} (ho : ∀ c ∈ o, IsOpChar c) (ho' : ∀ c ∈ o', IsOpChar c) (hw : ∀ c r, w = c :: r → ¬ IsOpChar c)
    (hw' : ∀ c r, w' = c :: r → ¬ IsOpChar c) (h : o ++ w = o' ++ w') : o = o' ∧ w = w' := cut_unique IsOpChar ho ho' hw hw' h

namespace Specifier

/-- Matches of the five patterns. -/
theorem order_iff (s : PyStr) : Lang Pattern.orderSpecification s ↔
    ∃ o ∈ ["<=".toList, ">=".toList, "<".toList, ">".toList], ∃ p : Spelling, p.WF ∧ p.local_ = none ∧ s = o ++ p.text := by
  unfold Pattern.orderSpecification
  simp only [seqs, lang_seq, lang_group, alts, lang_alt, lang_lits, lang_public]
  constructor
  · rintro ⟨o, _, rfl, ho, p, hp, hl, rfl⟩
    exact ⟨o, by simpa using ho, p, hp, hl, rfl⟩
  · rintro ⟨o, ho, p, hp, hl, rfl⟩
    exact ⟨o, _, rfl, by simpa using ho, p, hp, hl, rfl⟩

theorem caret_iff (s : PyStr) : Lang Pattern.caretSpecification s ↔ ∃ p : Spelling, p.WF ∧ p.local_ = none ∧ s = "^".toList ++ p.text := by
  unfold Pattern.caretSpecification
  simp only [seqs, lang_seq, lang_group, lang_lits, lang_public]
  constructor
  · rintro ⟨o, _, rfl, rfl, p, hp, hl, rfl⟩
    exact ⟨p, hp, hl, rfl⟩
  · rintro ⟨p, hp, hl, rfl⟩
    exact ⟨_, _, rfl, rfl, p, hp, hl, rfl⟩

theorem tilde_iff (s : PyStr) : Lang Pattern.tildeSpecification s ↔
    ∃ o ∈ ["~=".toList, "~".toList], ∃ p : Spelling, p.WF ∧ p.local_ = none ∧ s = o ++ p.text := by
  unfold Pattern.tildeSpecification
  simp only [seqs, lang_seq, lang_group, alts, lang_alt, lang_lits, lang_public]
  constructor
  · rintro ⟨o, _, rfl, ho, p, hp, hl, rfl⟩
    exact ⟨o, by simpa using ho, p, hp, hl, rfl⟩
  · rintro ⟨o, ho, p, hp, hl, rfl⟩
    exact ⟨o, _, rfl, by simpa using ho, p, hp, hl, rfl⟩

theorem equal_iff (s : PyStr) : Lang Pattern.equalSpecification s ↔
    ∃ o ∈ ["==".toList, "=".toList, "!=".toList, []], ∃ p : Spelling, p.WF ∧ s = o ++ p.text := by
  unfold Pattern.equalSpecification
  simp only [seqs, lang_seq, lang_opt, lang_group, alts, lang_alt, lang_lits, lang_version]
  constructor
  · rintro ⟨o, _, rfl, ho, p, hp, rfl⟩
    exact ⟨o, by simpa [or_assoc] using ho, p, hp, rfl⟩
  · rintro ⟨o, ho, p, hp, rfl⟩
    exact ⟨o, _, rfl, by simpa [or_assoc] using ho, p, hp, rfl⟩

theorem wildcard_iff (s : PyStr) : Lang Pattern.wildcardSpecification s ↔
    ∃ o ∈ ["==".toList, "=".toList, "!=".toList, []], ∃ p : Spelling, p.WF ∧ p.EndsInZero ∧ ∃ c, IsWildcard c ∧ s = o ++ p.wild c := by
  unfold Pattern.wildcardSpecification
  simp only [seqs, lang_seq, lang_opt, lang_group, alts, lang_alt, lang_lits, lang_wildcardVersion]
  constructor
  · rintro ⟨o, _, rfl, ho, p, hp, hz, c, hc, rfl⟩
    exact ⟨o, by simpa [or_assoc] using ho, p, hp, hz, c, hc, rfl⟩
  · rintro ⟨o, ho, p, hp, hz, c, hc, rfl⟩
    exact ⟨o, _, rfl, by simpa [or_assoc] using ho, p, hp, hz, c, hc, rfl⟩

/-! ### the attempts -/

theorem fullmatch_lang {r : Re} {s : PyStr} : (∃ c, fullmatch r s = some c) ↔ Lang r s :=
  ⟨fun ⟨c, h⟩ => ⟨c, fullmatch_matches h⟩, fun ⟨_, m⟩ => fullmatch_some m⟩

theorem fullmatch_none_of {r : Re} {s : PyStr} (h : ¬ Lang r s) : fullmatch r s = none := by
  cases hf : fullmatch r s with
  | none => rfl
  | some c => exact absurd ⟨c, fullmatch_matches hf⟩ h

/-- The version is read, and the specifier made. -/
def make (t : OpType) (w : PyStr) : Except PyErr (Option Specifier) := do
  let v ← Version.parse w
  .ok (some (← mkOne t v))

theorem tryParseWith_none {r : Re} {s : PyStr} (h : ¬ Lang r s) : tryParseWith r s = .ok none := by
  unfold tryParseWith
  rw [fullmatch_none_of h]

theorem tryParseWith_some {a b : Re} {o w : PyStr} {t : OpType} (ha : groups a = []) (hb : Grp.operator ∉ groups b)
    (hl : Lang (seqs [group .operator a, group .version b]) (o ++ w)) (ho : ∀ c ∈ o, IsOpChar c)
    (hao : ∀ o, Lang a o → ∀ c ∈ o, IsOpChar c) (hw : ∀ c r, w = c :: r → ¬ IsOpChar c)
    (hbw : ∀ w, Lang b w → ∀ c r, w = c :: r → ¬ IsOpChar c) (ht : OpType.ofValue o = .ok t) :
    tryParseWith (seqs [group .operator a, group .version b]) (o ++ w) = make t w := by
  obtain ⟨m, hm⟩ := fullmatch_lang.2 hl
  obtain ⟨o', w', e, h1, h2, h3, h4⟩ := get_pair ha hb (fullmatch_matches hm)
  obtain ⟨rfl, rfl⟩ := op_unique ho (hao _ h1) hw (hbw _ h2) e
  unfold tryParseWith make
  rw [hm]
  simp only [h3, h4, ht]
  rfl

theorem public_no_op (w : PyStr) (h : Lang Pattern.publicVersion w) : ∀ c r, w = c :: r → ¬ IsOpChar c := by
  obtain ⟨p, hp, -, rfl⟩ := (lang_public w).1 h
  exact text_no_op hp

theorem version_no_op (w : PyStr) (h : Lang Pattern.version w) : ∀ c r, w = c :: r → ¬ IsOpChar c := by
  obtain ⟨p, hp, rfl⟩ := (lang_version w).1 h
  exact text_no_op hp

theorem wildcard_no_op (w : PyStr) (h : Lang Pattern.wildcardVersion w) : ∀ c r, w = c :: r → ¬ IsOpChar c := by
  obtain ⟨p, hp, -, c, hc, rfl⟩ := (lang_wildcardVersion w).1 h
  exact wild_no_op hp hc

theorem order_some {o : PyStr} {t : OpType} (ho : (o, t) ∈ [("<=".toList, OpType.lessOrEqual), (">=".toList, .greaterOrEqual), ("<".toList, .less), (">".toList, .greater)])
    {p : Spelling} (hp : p.WF) (hl : p.local_ = none) : tryParseOrder (o ++ p.text) = make t p.text := by
  have hops : ∀ e ∈ [("<=".toList, OpType.lessOrEqual), (">=".toList, .greaterOrEqual), ("<".toList, .less), (">".toList, .greater)],
      e.1 ∈ ["<=".toList, ">=".toList, "<".toList, ">".toList] ∧ (∀ c ∈ e.1, IsOpChar c) ∧ OpType.ofValue e.1 = .ok e.2 := by decide
  obtain ⟨h1, h2, h3⟩ := hops _ ho
  refine tryParseWith_some rfl (by decide) ((order_iff _).2 ⟨o, h1, p, hp, hl, rfl⟩) h2 ?_ (text_no_op hp) public_no_op h3
  intro o' ho'
  simp only [alts, lang_alt, lang_lits] at ho'
  rcases ho' with rfl | rfl | rfl | rfl <;> decide

theorem caret_some {p : Spelling} (hp : p.WF) (hl : p.local_ = none) : tryParseCaret ("^".toList ++ p.text) = make .caret p.text := by
  refine tryParseWith_some rfl (by decide) ((caret_iff _).2 ⟨p, hp, hl, rfl⟩) (by decide) ?_ (text_no_op hp) public_no_op (by decide)
  intro o' ho'
  rw [lang_lits] at ho'
  subst ho'
  decide

theorem tilde_some {o : PyStr} {t : OpType} (ho : (o, t) ∈ [("~=".toList, OpType.tildeEqual), ("~".toList, .tilde)])
    {p : Spelling} (hp : p.WF) (hl : p.local_ = none) : tryParseTilde (o ++ p.text) = make t p.text := by
  have hops : ∀ e ∈ [("~=".toList, OpType.tildeEqual), ("~".toList, .tilde)],
      e.1 ∈ ["~=".toList, "~".toList] ∧ (∀ c ∈ e.1, IsOpChar c) ∧ OpType.ofValue e.1 = .ok e.2 := by decide
  obtain ⟨h1, h2, h3⟩ := hops _ ho
  refine tryParseWith_some rfl (by decide) ((tilde_iff _).2 ⟨o, h1, p, hp, hl, rfl⟩) h2 ?_ (text_no_op hp) public_no_op h3
  intro o' ho'
  simp only [alts, lang_alt, lang_lits] at ho'
  rcases ho' with rfl | rfl <;> decide

theorem equals_op (o : PyStr) (h : Lang (alts [lits "==", lits "=", lits "!="]) o) : o ∈ ["==".toList, "=".toList, "!=".toList] ∧ ∀ c ∈ o, IsOpChar c := by
  simp only [alts, lang_alt, lang_lits] at h
  rcases h with rfl | rfl | rfl <;> decide

theorem equal_some {o : PyStr} {t : OpType} (ho : (o, t) ∈ equalWords) {p : Spelling} (hp : p.WF) :
    tryParseEqual (o ++ p.text) = make t p.text := by
  have hops : ∀ e ∈ equalWords, e.1 ∈ ["==".toList, "=".toList, "!=".toList, []] ∧ (∀ c ∈ e.1, IsOpChar c) ∧
      (e.1 = [] → e.2 = .equal) ∧ (e.1 ≠ [] → OpType.ofValue e.1 = .ok e.2) := by decide
  obtain ⟨h1, h2, h3, h4⟩ := hops _ ho
  dsimp only at h1 h2 h3 h4
  obtain ⟨m, hm⟩ := fullmatch_lang.2 ((equal_iff _).2 ⟨o, h1, p, hp, rfl⟩)
  obtain ⟨o', w', e, g1, g2, g3⟩ := get_optPair (a := alts [lits "==", lits "=", lits "!="]) rfl (by decide) (fullmatch_matches hm)
  unfold tryParseEqual make
  rw [hm]
  rcases g3 with ⟨g3, g4⟩ | ⟨rfl, g4⟩
  · obtain ⟨g5, g6⟩ := equals_op _ g3
    obtain ⟨rfl, rfl⟩ := op_unique h2 g6 (text_no_op hp) (version_no_op _ g1) e
    have : o ≠ [] := by
      rintro rfl
      exact absurd g5 (by decide)
    simp only [g2, g4, h4 this]
    rfl
  · obtain ⟨rfl, rfl⟩ := op_unique h2 (by simp) (text_no_op hp) (version_no_op _ g1) e
    have ht := h3 rfl
    subst ht
    simp only [g2, g4]
    rfl

theorem wildcard_some {o : PyStr} {t : OpType} (ho : (o, t) ∈ wildcardWords) {p : Spelling} (hp : p.WF) (hz : p.EndsInZero) {c : Char}
    (hc : IsWildcard c) : tryParseWildcard (o ++ p.wild c) = make t (replaceChar '*' '0' (replaceChar 'x' '*' (p.wild c))) := by
  have hops : ∀ e ∈ wildcardWords, e.1 ∈ ["==".toList, "=".toList, "!=".toList, []] ∧ (∀ c ∈ e.1, IsOpChar c) ∧
      (e.1 = [] → e.2 = .wildcardEqual) ∧ (e.1 ≠ [] → OpType.ofValue (e.1 ++ ['*']) = .ok e.2) := by decide
  obtain ⟨h1, h2, h3, h4⟩ := hops _ ho
  dsimp only at h1 h2 h3 h4
  obtain ⟨m, hm⟩ := fullmatch_lang.2 ((wildcard_iff _).2 ⟨o, h1, p, hp, hz, c, hc, rfl⟩)
  obtain ⟨o', w', e, g1, g2, g3⟩ := get_optPair (a := alts [lits "==", lits "=", lits "!="]) rfl (by decide) (fullmatch_matches hm)
  unfold tryParseWildcard make
  rw [hm]
  rcases g3 with ⟨g3, g4⟩ | ⟨rfl, g4⟩
  · obtain ⟨g5, g6⟩ := equals_op _ g3
    obtain ⟨rfl, rfl⟩ := op_unique h2 g6 (wild_no_op hp hc) (wildcard_no_op _ g1) e
    have : o ≠ [] := by
      rintro rfl
      exact absurd g5 (by decide)
    simp only [g2, g4, h4 this]
    rfl
  · obtain ⟨rfl, rfl⟩ := op_unique h2 (by simp) (wild_no_op hp hc) (wildcard_no_op _ g1) e
    have ht := h3 rfl
    subst ht
    simp only [g2, g4]
    generalize Version.parse _ = z
    cases z <;> rfl

/-! ### one attempt at most applies -/

theorem public_chars {p : Spelling} (hp : p.WF) (hl : p.local_ = none) {c : Char} (h : c ∈ p.text) : ¬ IsWildcard c ∧ c ≠ '+' := by
  obtain ⟨m, hm⟩ := (public_iff p.text).2 ⟨p, hp, hl, rfl⟩
  have ha := Re.allows_of_mem _ _ _ hm c h
  constructor
  · rintro (rfl | rfl | rfl) <;> exact absurd ha (by decide)
  · rintro rfl
    exact absurd ha (by decide)

theorem text_ne_wild {p q : Spelling} (hp : p.WF) (hq : q.WF) (hz : q.EndsInZero) {c : Char} (hc : IsWildcard c) : p.text ≠ q.wild c := by
  intro e
  cases hl : p.local_ with
  | none =>
    have : c ∈ p.text := by
      rw [e]
      simp [Spelling.wild]
    exact (public_chars hp hl this).1 hc
  | some l =>
    have h1 : '+' ∈ p.text := by
      unfold Spelling.text
      rw [hl]
      simp [Spelling.localText, Spelling.optText]
    rw [e] at h1
    unfold Spelling.wild at h1
    rcases List.mem_append.1 h1 with h1 | h1
    · exact (public_chars hq hz.1 (List.dropLast_subset _ h1)).2 rfl
    · rw [List.mem_singleton] at h1
      rw [← h1] at hc
      rcases hc with h | h | h <;> exact absurd h (by decide)

theorem not_wildcard {o : PyStr} (ho : ∀ c ∈ o, IsOpChar c) {p : Spelling} (hp : p.WF) : ¬ Lang Pattern.wildcardSpecification (o ++ p.text) := by
  rw [wildcard_iff]
  rintro ⟨o', ho', q, hq, hz, c, hc, e⟩
  have hops : ∀ o ∈ ["==".toList, "=".toList, "!=".toList, []], ∀ c ∈ o, IsOpChar c := by decide
  exact text_ne_wild hp hq hz hc (op_unique ho (hops o' ho') (text_no_op hp) (wild_no_op hq hc) e).2

theorem not_order {o : PyStr} (ho : ∀ c ∈ o, IsOpChar c) (hn : o ∉ ["<=".toList, ">=".toList, "<".toList, ">".toList]) {p : Spelling} (hp : p.WF) :
    ¬ Lang Pattern.orderSpecification (o ++ p.text) := by
  rw [order_iff]
  rintro ⟨o', ho', q, hq, -, e⟩
  have hops : ∀ o ∈ ["<=".toList, ">=".toList, "<".toList, ">".toList], ∀ c ∈ o, IsOpChar c := by decide
  exact hn ((op_unique ho (hops o' ho') (text_no_op hp) (text_no_op hq) e).1 ▸ ho')

theorem not_equal {o : PyStr} (ho : ∀ c ∈ o, IsOpChar c) (hn : o ∉ ["==".toList, "=".toList, "!=".toList, []]) {p : Spelling} (hp : p.WF) :
    ¬ Lang Pattern.equalSpecification (o ++ p.text) := by
  rw [equal_iff]
  rintro ⟨o', ho', q, hq, e⟩
  have hops : ∀ o ∈ ["==".toList, "=".toList, "!=".toList, []], ∀ c ∈ o, IsOpChar c := by decide
  exact hn ((op_unique ho (hops o' ho') (text_no_op hp) (text_no_op hq) e).1 ▸ ho')

theorem not_caret {o : PyStr} (ho : ∀ c ∈ o, IsOpChar c) (hn : o ≠ "^".toList) {p : Spelling} (hp : p.WF) :
    ¬ Lang Pattern.caretSpecification (o ++ p.text) := by
  rw [caret_iff]
  rintro ⟨q, hq, -, e⟩
  exact hn (op_unique ho (by decide) (text_no_op hp) (text_no_op hq) e).1

theorem wildcard_none {s : PyStr} (h : ¬ Lang Pattern.wildcardSpecification s) : tryParseWildcard s = .ok none := by
  unfold tryParseWildcard
  rw [fullmatch_none_of h]

theorem equal_none {s : PyStr} (h : ¬ Lang Pattern.equalSpecification s) : tryParseEqual s = .ok none := by
  unfold tryParseEqual
  rw [fullmatch_none_of h]

/-! ### `parse_single` -/

/-- The version is read, and the specifier made. -/
def makeOne (t : OpType) (w : PyStr) : Except PyErr Specifier := do mkOne t (← Version.parse w)

theorem firstOf_none {f : PyStr → Except PyErr (Option Specifier)} {fs : List (PyStr → Except PyErr (Option Specifier))} {s : PyStr}
    (h : f s = .ok none) : firstOf (f :: fs) s = firstOf fs s := by
  rw [firstOf, h]
  rfl

theorem firstOf_make {f : PyStr → Except PyErr (Option Specifier)} {fs : List (PyStr → Except PyErr (Option Specifier))} {s w : PyStr} {t : OpType}
    (h : f s = make t w) : firstOf (f :: fs) s = makeOne t w := by
  rw [firstOf, h]
  unfold make makeOne
  cases Version.parse w with
  | error e => rfl
  | ok v =>
    have : (do let v ← (.ok v : Except PyErr Version); mkOne t v) = mkOne t v := rfl
    rw [this]
    have : (do let v ← (.ok v : Except PyErr Version); .ok (some (← mkOne t v)) : Except PyErr (Option Specifier)) = (do .ok (some (← mkOne t v))) := rfl
    rw [this]
    cases mkOne t v <;> rfl

theorem single_compare {o : PyStr} {t : OpType} (ho : (o, t) ∈ compareWords) {p : Spelling} (hp : p.WF) (hl : p.local_ = none) :
    parseSingle (o ++ p.text) = makeOne t p.text := by
  have hops : ∀ e ∈ compareWords, ∀ c ∈ e.1, IsOpChar c := by decide
  have h0 : ∀ c ∈ o, IsOpChar c := hops _ ho
  unfold parseSingle
  rw [firstOf_none (wildcard_none (not_wildcard h0 hp))]
  have hcases : ∀ e ∈ compareWords, e ∈ [("<=".toList, OpType.lessOrEqual), (">=".toList, .greaterOrEqual), ("<".toList, .less), (">".toList, .greater)] ∨
      (e.1 ∉ ["<=".toList, ">=".toList, "<".toList, ">".toList] ∧ e.1 ∉ ["==".toList, "=".toList, "!=".toList, []] ∧
        (e = ("^".toList, .caret) ∨ (e.1 ≠ "^".toList ∧ e ∈ [("~=".toList, OpType.tildeEqual), ("~".toList, .tilde)]))) := by decide
  rcases hcases _ ho with h | ⟨h1, h2, h | ⟨h3, h4⟩⟩
  · exact firstOf_make (order_some h hp hl)
  · rw [firstOf_none (f := tryParseOrder) (tryParseWith_none (not_order h0 h1 hp)), firstOf_none (equal_none (not_equal h0 h2 hp))]
    cases h
    exact firstOf_make (caret_some hp hl)
  · rw [firstOf_none (f := tryParseOrder) (tryParseWith_none (not_order h0 h1 hp)), firstOf_none (equal_none (not_equal h0 h2 hp)),
      firstOf_none (f := tryParseCaret) (tryParseWith_none (not_caret h0 h3 hp))]
    exact firstOf_make (tilde_some h4 hp hl)

theorem single_equal {o : PyStr} {t : OpType} (ho : (o, t) ∈ equalWords) {p : Spelling} (hp : p.WF) : parseSingle (o ++ p.text) = makeOne t p.text := by
  have hops : ∀ e ∈ equalWords, (∀ c ∈ e.1, IsOpChar c) ∧ e.1 ∉ ["<=".toList, ">=".toList, "<".toList, ">".toList] := by decide
  obtain ⟨h0, h1⟩ := hops _ ho
  unfold parseSingle
  rw [firstOf_none (wildcard_none (not_wildcard h0 hp)), firstOf_none (f := tryParseOrder) (tryParseWith_none (not_order h0 h1 hp))]
  exact firstOf_make (equal_some ho hp)

/-- The text ends in the character 0 if the spelling ends in the number 0. -/
theorem wild_zero {p : Spelling} (hz : p.EndsInZero) : p.wild '0' = p.text := by
  have tag : ∀ (a : PyStr) (t : TagSpelling), Spelling.TagZero t → (a ++ t.text).dropLast ++ ['0'] = a ++ t.text := by
    intro a t ht
    rw [dropLast_tag a ht, List.append_assoc]
    congr 1
    obtain ⟨s, q, v⟩ := t
    obtain ⟨s', rfl⟩ := ht
    have : (TagSpelling.mk s q (some (s', ['0']))).text = (s ++ (q ++ s')) ++ ['0'] := by
      simp [TagSpelling.text, TagSpelling.body, TagSpelling.valueText]
    rw [this, List.dropLast_concat]
  obtain ⟨v, e, m, l, a, b, d, loc⟩ := p
  obtain ⟨hloc, hz⟩ := hz
  dsimp only at hloc hz
  subst hloc
  simp only [Spelling.wild, Spelling.text, Spelling.localText, Spelling.optText, List.append_nil]
  cases d with
  | some t =>
    have hz : Spelling.TagZero t := by simpa using hz
    exact tag _ t hz
  | none =>
    cases b with
    | some b =>
      cases b with
      | implicit d =>
        have hz : d = ['0'] := by cases a <;> simpa using hz
        subst hz
        have : ∀ x : PyStr, x ++ PostSpelling.text (.implicit ['0']) = (x ++ ['-']) ++ ['0'] := by
          intro x
          simp [PostSpelling.text]
        simp only [List.append_nil]
        rw [this, List.dropLast_concat]
      | tag t =>
        have hz : Spelling.TagZero t := by cases a <;> simpa using hz
        simp only [List.append_nil, PostSpelling.text]
        exact tag _ t hz
    | none =>
      simp only [List.append_nil]
      cases a with
      | some t =>
        have hz : Spelling.TagZero t := by simpa using hz
        exact tag _ t hz
      | none =>
        dsimp only at hz
        simp only [List.append_nil]
        rcases List.eq_nil_or_concat l with rfl | ⟨l', x, rfl⟩
        · have hz : m = ['0'] := by simpa using hz
          subst hz
          simp only [Spelling.releaseText, List.map_nil, List.flatten_nil, List.append_nil, List.dropLast_concat]
        · have hz : x = ['0'] := by simpa using hz
          subst hz
          have : v ++ Spelling.epochText e ++ Spelling.releaseText m (l' ++ [['0']]) = (v ++ Spelling.epochText e ++ Spelling.releaseText m l' ++ ['.']) ++ ['0'] := by
            simp [release_snoc]
          simp only [List.concat_eq_append]
          rw [this, List.dropLast_concat]

theorem replace_public {p : Spelling} (hp : p.WF) (hl : p.local_ = none) (c : Char) :
    replaceChar '*' '0' (replaceChar 'x' '*' (p.wild c)) = p.wild (if c = 'x' ∨ c = '*' then '0' else c) := by
  unfold replaceChar Spelling.wild
  rw [List.map_map, List.map_append]
  congr 1
  · conv_rhs => rw [← List.map_id p.text.dropLast]
    apply List.map_congr_left
    intro x hx
    have := (public_chars hp hl (List.dropLast_subset _ hx)).1
    have h1 : x ≠ 'x' := fun h => this (.inl h)
    have h2 : x ≠ '*' := fun h => this (.inr (.inr h))
    simp [Function.comp, h1, h2]
  · by_cases h1 : c = 'x'
    · simp [h1]
    · by_cases h2 : c = '*' <;> simp [h1, h2]

theorem single_wildcard {o : PyStr} {t : OpType} (ho : (o, t) ∈ wildcardWords) {p : Spelling} (hp : p.WF) (hz : p.EndsInZero) {c : Char}
    (hc : c = 'x' ∨ c = '*') : parseSingle (o ++ p.wild c) = makeOne t p.text := by
  unfold parseSingle
  have hc' : IsWildcard c := hc.elim .inl (fun h => .inr (.inr h))
  have h := wildcard_some ho hp hz hc'
  rw [replace_public hp hz.1, if_pos hc, wild_zero hz] at h
  exact firstOf_make h

theorem single_upper_wildcard {o : PyStr} {t : OpType} (ho : (o, t) ∈ wildcardWords) {p : Spelling} (hp : p.WF) (hz : p.EndsInZero) :
    parseSingle (o ++ p.wild 'X') = .error .parseVersionError := by
  unfold parseSingle
  have h := wildcard_some ho hp hz (c := 'X') (.inr (.inl rfl))
  rw [replace_public hp hz.1, if_neg (by decide)] at h
  rw [firstOf_make h]
  unfold makeOne
  rw [(parse_no_spelling _).2]
  · rfl
  · rintro ⟨q, hq, e⟩
    exact text_ne_wild hq hp hz (.inr (.inl rfl)) e.symm

/-- Every string is of one of these forms, or `parse_single` fails. -/
theorem single_cases (s : PyStr) :
    (∃ o t p, (o, t) ∈ compareWords ∧ p.WF ∧ p.local_ = none ∧ s = o ++ Spelling.text p) ∨
    (∃ o t p, (o, t) ∈ equalWords ∧ p.WF ∧ s = o ++ Spelling.text p) ∨
    (∃ o t p c, (o, t) ∈ wildcardWords ∧ p.WF ∧ p.EndsInZero ∧ IsWildcard c ∧ s = o ++ Spelling.wild p c) ∨
    parseSingle s = .error .parseSpecificationError := by
  have names : ∀ (l : List (PyStr × OpType)) (o : PyStr), o ∈ l.map (·.1) → ∃ t, (o, t) ∈ l := by
    intro l o h
    obtain ⟨x, hx, rfl⟩ := List.mem_map.1 h
    exact ⟨x.2, hx⟩
  have cmp : ∀ o ∈ ["<=".toList, ">=".toList, "<".toList, ">".toList, "^".toList, "~=".toList, "~".toList], o ∈ compareWords.map (·.1) := by decide
  have eqs : ∀ o ∈ ["==".toList, "=".toList, "!=".toList, []], o ∈ equalWords.map (·.1) ∧ o ∈ wildcardWords.map (·.1) := by decide
  by_cases h1 : Lang Pattern.wildcardSpecification s
  · obtain ⟨o, ho, p, hp, hz, c, hc, e⟩ := (wildcard_iff s).1 h1
    obtain ⟨t, ht⟩ := names _ o (eqs o ho).2
    exact .inr (.inr (.inl ⟨o, t, p, c, ht, hp, hz, hc, e⟩))
  by_cases h2 : Lang Pattern.orderSpecification s
  · obtain ⟨o, ho, p, hp, hl, e⟩ := (order_iff s).1 h2
    obtain ⟨t, ht⟩ := names _ o (cmp o (by simp only [List.mem_cons, List.not_mem_nil, or_false] at ho ⊢; rcases ho with h | h | h | h <;> simp [h]))
    exact .inl ⟨o, t, p, ht, hp, hl, e⟩
  by_cases h3 : Lang Pattern.equalSpecification s
  · obtain ⟨o, ho, p, hp, e⟩ := (equal_iff s).1 h3
    obtain ⟨t, ht⟩ := names _ o (eqs o ho).1
    exact .inr (.inl ⟨o, t, p, ht, hp, e⟩)
  by_cases h4 : Lang Pattern.caretSpecification s
  · obtain ⟨p, hp, hl, e⟩ := (caret_iff s).1 h4
    obtain ⟨t, ht⟩ := names _ "^".toList (cmp _ (by decide))
    exact .inl ⟨_, t, p, ht, hp, hl, e⟩
  by_cases h5 : Lang Pattern.tildeSpecification s
  · obtain ⟨o, ho, p, hp, hl, e⟩ := (tilde_iff s).1 h5
    obtain ⟨t, ht⟩ := names _ o (cmp o (by simp only [List.mem_cons, List.not_mem_nil, or_false] at ho ⊢; rcases ho with h | h <;> simp [h]))
    exact .inl ⟨o, t, p, ht, hp, hl, e⟩
  · right; right; right
    unfold parseSingle
    rw [firstOf_none (wildcard_none h1), firstOf_none (f := tryParseOrder) (tryParseWith_none h2), firstOf_none (equal_none h3), firstOf_none (f := tryParseCaret) (tryParseWith_none h4),
      firstOf_none (f := tryParseTilde) (tryParseWith_none h5)]
    rfl

end Specifier
end Verif
