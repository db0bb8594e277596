import Verif.Proofs.DigitLimit
import Verif.Proofs.SpecGrammar
import Verif.Spec.ParserBy
/-!
# Specifier parsers over any version parser
-/

namespace Verif
open Re

namespace Specifier

/-- The version is read by the parser, and the specifier made. -/
def makeBy (P : VersionParser) (t : OpType) (w : PyStr) : Except PyErr (Option Specifier) := do
  let v ← P w
  .ok (some (← mkOne t v))

/-- The version is read by the parser, and the specifier made. -/
def makeOneBy (P : VersionParser) (t : OpType) (w : PyStr) : Except PyErr Specifier := do mkOne t (← P w)

theorem tryParseWith_none_by (P : VersionParser) {r : Re} {s : PyStr} (h : ¬ Lang r s) : tryParseWithBy P r s = .ok none := by
  unfold tryParseWithBy
  rw [fullmatch_none_of h]

theorem tryParseWith_some_by (P : VersionParser) {a b : Re} {o w : PyStr} {t : OpType} (ha : groups a = []) (hb : Grp.operator ∉ groups b)
    (hl : Lang (seqs [group .operator a, group .version b]) (o ++ w)) (ho : ∀ c ∈ o, IsOpChar c)
    (hao : ∀ o, Lang a o → ∀ c ∈ o, IsOpChar c) (hw : ∀ c r, w = c :: r → ¬ IsOpChar c)
    (hbw : ∀ w, Lang b w → ∀ c r, w = c :: r → ¬ IsOpChar c) (ht : OpType.ofValue o = .ok t) :
    tryParseWithBy P (seqs [group .operator a, group .version b]) (o ++ w) = makeBy P t w := by
  obtain ⟨m, hm⟩ := fullmatch_lang.2 hl
  obtain ⟨o', w', e, h1, h2, h3, h4⟩ := get_pair ha hb (fullmatch_matches hm)
  obtain ⟨rfl, rfl⟩ := op_unique ho (hao _ h1) hw (hbw _ h2) e
  unfold tryParseWithBy makeBy
  rw [hm]
  simp only [h3, h4, ht]
  rfl

theorem order_some_by (P : VersionParser) {o : PyStr} {t : OpType} (ho : (o, t) ∈ [("<=".toList, OpType.lessOrEqual), (">=".toList, .greaterOrEqual), ("<".toList, .less), (">".toList, .greater)])
    {p : Spelling} (hp : p.WF) (hl : p.local_ = none) : tryParseWithBy P Pattern.orderSpecification (o ++ p.text) = makeBy P t p.text := by
  have hops : ∀ e ∈ [("<=".toList, OpType.lessOrEqual), (">=".toList, .greaterOrEqual), ("<".toList, .less), (">".toList, .greater)],
      e.1 ∈ ["<=".toList, ">=".toList, "<".toList, ">".toList] ∧ (∀ c ∈ e.1, IsOpChar c) ∧ OpType.ofValue e.1 = .ok e.2 := by decide
  obtain ⟨h1, h2, h3⟩ := hops _ ho
  refine tryParseWith_some_by P rfl (by decide) ((order_iff _).2 ⟨o, h1, p, hp, hl, rfl⟩) h2 ?_ (text_no_op hp) public_no_op h3
  intro o' ho'
  simp only [alts, lang_alt, lang_lits] at ho'
  rcases ho' with rfl | rfl | rfl | rfl <;> decide

theorem caret_some_by (P : VersionParser) {p : Spelling} (hp : p.WF) (hl : p.local_ = none) : tryParseWithBy P Pattern.caretSpecification ("^".toList ++ p.text) = makeBy P .caret p.text := by
  refine tryParseWith_some_by P rfl (by decide) ((caret_iff _).2 ⟨p, hp, hl, rfl⟩) (by decide) ?_ (text_no_op hp) public_no_op (by decide)
  intro o' ho'
  rw [lang_lits] at ho'
  subst ho'
  decide

theorem tilde_some_by (P : VersionParser) {o : PyStr} {t : OpType} (ho : (o, t) ∈ [("~=".toList, OpType.tildeEqual), ("~".toList, .tilde)])
    {p : Spelling} (hp : p.WF) (hl : p.local_ = none) : tryParseWithBy P Pattern.tildeSpecification (o ++ p.text) = makeBy P t p.text := by
  have hops : ∀ e ∈ [("~=".toList, OpType.tildeEqual), ("~".toList, .tilde)],
      e.1 ∈ ["~=".toList, "~".toList] ∧ (∀ c ∈ e.1, IsOpChar c) ∧ OpType.ofValue e.1 = .ok e.2 := by decide
  obtain ⟨h1, h2, h3⟩ := hops _ ho
  refine tryParseWith_some_by P rfl (by decide) ((tilde_iff _).2 ⟨o, h1, p, hp, hl, rfl⟩) h2 ?_ (text_no_op hp) public_no_op h3
  intro o' ho'
  simp only [alts, lang_alt, lang_lits] at ho'
  rcases ho' with rfl | rfl <;> decide

theorem equal_some_by (P : VersionParser) {o : PyStr} {t : OpType} (ho : (o, t) ∈ equalWords) {p : Spelling} (hp : p.WF) :
    tryParseEqualBy P (o ++ p.text) = makeBy P t p.text := by
  have hops : ∀ e ∈ equalWords, e.1 ∈ ["==".toList, "=".toList, "!=".toList, []] ∧ (∀ c ∈ e.1, IsOpChar c) ∧
      (e.1 = [] → e.2 = .equal) ∧ (e.1 ≠ [] → OpType.ofValue e.1 = .ok e.2) := by decide
  obtain ⟨h1, h2, h3, h4⟩ := hops _ ho
  dsimp only at h1 h2 h3 h4
  obtain ⟨m, hm⟩ := fullmatch_lang.2 ((equal_iff _).2 ⟨o, h1, p, hp, rfl⟩)
  obtain ⟨o', w', e, g1, g2, g3⟩ := get_optPair (a := alts [lits "==", lits "=", lits "!="]) rfl (by decide) (fullmatch_matches hm)
  unfold tryParseEqualBy makeBy
  rw [hm]
  rcases g3 with ⟨g3, g4⟩ | ⟨rfl, g4⟩
  · obtain ⟨g5, g6⟩ := equals_op _ g3
    obtain ⟨rfl, rfl⟩ := op_unique h2 g6 (text_no_op hp) (version_no_op _ g1) e
    have : o ≠ [] := by
      rintro rfl
      exact absurd g5 (by decide)
    simp only [g2, g4, h4 this]
    rfl
  · obtain ⟨rfl, rfl⟩ := op_unique h2 (by simp) (text_no_op hp) (version_no_op _ g1) e
    have ht := h3 rfl
    subst ht
    simp only [g2, g4]
    rfl

theorem wildcard_some_by (P : VersionParser) {o : PyStr} {t : OpType} (ho : (o, t) ∈ wildcardWords) {p : Spelling} (hp : p.WF) (hz : p.EndsInZero) {c : Char}
    (hc : IsWildcard c) : tryParseWildcardBy P (o ++ p.wild c) = makeBy P t (replaceChar '*' '0' (replaceChar 'x' '*' (p.wild c))) := by
  have hops : ∀ e ∈ wildcardWords, e.1 ∈ ["==".toList, "=".toList, "!=".toList, []] ∧ (∀ c ∈ e.1, IsOpChar c) ∧
      (e.1 = [] → e.2 = .wildcardEqual) ∧ (e.1 ≠ [] → OpType.ofValue (e.1 ++ ['*']) = .ok e.2) := by decide
  obtain ⟨h1, h2, h3, h4⟩ := hops _ ho
  dsimp only at h1 h2 h3 h4
  obtain ⟨m, hm⟩ := fullmatch_lang.2 ((wildcard_iff _).2 ⟨o, h1, p, hp, hz, c, hc, rfl⟩)
  obtain ⟨o', w', e, g1, g2, g3⟩ := get_optPair (a := alts [lits "==", lits "=", lits "!="]) rfl (by decide) (fullmatch_matches hm)
  unfold tryParseWildcardBy makeBy
  rw [hm]
  rcases g3 with ⟨g3, g4⟩ | ⟨rfl, g4⟩
  · obtain ⟨g5, g6⟩ := equals_op _ g3
    obtain ⟨rfl, rfl⟩ := op_unique h2 g6 (wild_no_op hp hc) (wildcard_no_op _ g1) e
    have : o ≠ [] := by
      rintro rfl
      exact absurd g5 (by decide)
    simp only [g2, g4, h4 this]
    rfl
  · obtain ⟨rfl, rfl⟩ := op_unique h2 (by simp) (wild_no_op hp hc) (wildcard_no_op _ g1) e
    have ht := h3 rfl
    subst ht
    simp only [g2, g4]
    generalize P _ = z
    cases z <;> rfl

theorem wildcard_none_by (P : VersionParser) {s : PyStr} (h : ¬ Lang Pattern.wildcardSpecification s) : tryParseWildcardBy P s = .ok none := by
  unfold tryParseWildcardBy
  rw [fullmatch_none_of h]

theorem equal_none_by (P : VersionParser) {s : PyStr} (h : ¬ Lang Pattern.equalSpecification s) : tryParseEqualBy P s = .ok none := by
  unfold tryParseEqualBy
  rw [fullmatch_none_of h]

theorem firstOf_makeBy (P : VersionParser) {f : PyStr → Except PyErr (Option Specifier)} {fs : List (PyStr → Except PyErr (Option Specifier))} {s w : PyStr} {t : OpType}
    (h : f s = makeBy P t w) : firstOf (f :: fs) s = makeOneBy P t w := by
  rw [firstOf, h]
  unfold makeBy makeOneBy
  cases P w with
  | error e => rfl
  | ok v =>
    have : (do let v ← (.ok v : Except PyErr Version); mkOne t v) = mkOne t v := rfl
    rw [this]
    have : (do let v ← (.ok v : Except PyErr Version); .ok (some (← mkOne t v)) : Except PyErr (Option Specifier)) = (do .ok (some (← mkOne t v))) := rfl
    rw [this]
    cases mkOne t v <;> rfl

theorem single_compare_by (P : VersionParser) {o : PyStr} {t : OpType} (ho : (o, t) ∈ compareWords) {p : Spelling} (hp : p.WF) (hl : p.local_ = none) :
    parseSingleBy P (o ++ p.text) = makeOneBy P t p.text := by
  have hops : ∀ e ∈ compareWords, ∀ c ∈ e.1, IsOpChar c := by decide
  have h0 : ∀ c ∈ o, IsOpChar c := hops _ ho
  unfold parseSingleBy
  rw [firstOf_none (wildcard_none_by P (not_wildcard h0 hp))]
  have hcases : ∀ e ∈ compareWords, e ∈ [("<=".toList, OpType.lessOrEqual), (">=".toList, .greaterOrEqual), ("<".toList, .less), (">".toList, .greater)] ∨
      (e.1 ∉ ["<=".toList, ">=".toList, "<".toList, ">".toList] ∧ e.1 ∉ ["==".toList, "=".toList, "!=".toList, []] ∧
        (e = ("^".toList, .caret) ∨ (e.1 ≠ "^".toList ∧ e ∈ [("~=".toList, OpType.tildeEqual), ("~".toList, .tilde)]))) := by decide
  rcases hcases _ ho with h | ⟨h1, h2, h | ⟨h3, h4⟩⟩
  · exact firstOf_makeBy P (order_some_by P h hp hl)
  · rw [firstOf_none (f := tryParseWithBy P Pattern.orderSpecification) (tryParseWith_none_by P (not_order h0 h1 hp)), firstOf_none (equal_none_by P (not_equal h0 h2 hp))]
    cases h
    exact firstOf_makeBy P (caret_some_by P hp hl)
  · rw [firstOf_none (f := tryParseWithBy P Pattern.orderSpecification) (tryParseWith_none_by P (not_order h0 h1 hp)), firstOf_none (equal_none_by P (not_equal h0 h2 hp)),
      firstOf_none (f := tryParseWithBy P Pattern.caretSpecification) (tryParseWith_none_by P (not_caret h0 h3 hp))]
    exact firstOf_makeBy P (tilde_some_by P h4 hp hl)

theorem single_equal_by (P : VersionParser) {o : PyStr} {t : OpType} (ho : (o, t) ∈ equalWords) {p : Spelling} (hp : p.WF) : parseSingleBy P (o ++ p.text) = makeOneBy P t p.text := by
  have hops : ∀ e ∈ equalWords, (∀ c ∈ e.1, IsOpChar c) ∧ e.1 ∉ ["<=".toList, ">=".toList, "<".toList, ">".toList] := by decide
  obtain ⟨h0, h1⟩ := hops _ ho
  unfold parseSingleBy
  rw [firstOf_none (wildcard_none_by P (not_wildcard h0 hp)), firstOf_none (f := tryParseWithBy P Pattern.orderSpecification) (tryParseWith_none_by P (not_order h0 h1 hp))]
  exact firstOf_makeBy P (equal_some_by P ho hp)

theorem single_wildcard_by (P : VersionParser) {o : PyStr} {t : OpType} (ho : (o, t) ∈ wildcardWords) {p : Spelling} (hp : p.WF) (hz : p.EndsInZero) {c : Char}
    (hc : c = 'x' ∨ c = '*') : parseSingleBy P (o ++ p.wild c) = makeOneBy P t p.text := by
  unfold parseSingleBy
  have hc' : IsWildcard c := hc.elim .inl (fun h => .inr (.inr h))
  have h := wildcard_some_by P ho hp hz hc'
  rw [replace_public hp hz.1, if_pos hc, wild_zero hz] at h
  exact firstOf_makeBy P h


theorem single_upper_by (P : VersionParser) {o : PyStr} {t : OpType} (ho : (o, t) ∈ wildcardWords) {p : Spelling} (hp : p.WF) (hz : p.EndsInZero) :
    parseSingleBy P (o ++ p.wild 'X') = makeOneBy P t (p.wild 'X') := by
  unfold parseSingleBy
  have h := wildcard_some_by P ho hp hz (c := 'X') (.inr (.inl rfl))
  rw [replace_public hp hz.1, if_neg (by decide)] at h
  exact firstOf_makeBy P h

theorem single_no_form_by (P : VersionParser) {s : PyStr} (h : ¬ SingleForm s) : parseSingleBy P s = .error .parseSpecificationError := by
  have names : ∀ (l : List (PyStr × OpType)) (o : PyStr), o ∈ l.map (·.1) → ∃ t, (o, t) ∈ l := by
    intro l o h
    obtain ⟨x, hx, rfl⟩ := List.mem_map.1 h
    exact ⟨x.2, hx⟩
  have cmp : ∀ o ∈ ["<=".toList, ">=".toList, "<".toList, ">".toList, "^".toList, "~=".toList, "~".toList], o ∈ compareWords.map (·.1) := by decide
  have eqs : ∀ o ∈ ["==".toList, "=".toList, "!=".toList, []], o ∈ equalWords.map (·.1) ∧ o ∈ wildcardWords.map (·.1) := by decide
  have h1 : ¬ Lang Pattern.wildcardSpecification s := by
    intro h1
    obtain ⟨o, ho, p, hp, hz, c, hc, rfl⟩ := (wildcard_iff s).1 h1
    obtain ⟨t, ht⟩ := names _ o (eqs o ho).2
    exact h (.wildcard ht hp hz hc)
  have h2 : ¬ Lang Pattern.orderSpecification s := by
    intro h2
    obtain ⟨o, ho, p, hp, hl, rfl⟩ := (order_iff s).1 h2
    obtain ⟨t, ht⟩ := names _ o (cmp o (by simp only [List.mem_cons, List.not_mem_nil, or_false] at ho ⊢; rcases ho with h | h | h | h <;> simp [h]))
    exact h (.compare ht hp hl)
  have h3 : ¬ Lang Pattern.equalSpecification s := by
    intro h3
    obtain ⟨o, ho, p, hp, rfl⟩ := (equal_iff s).1 h3
    obtain ⟨t, ht⟩ := names _ o (eqs o ho).1
    exact h (.equal ht hp)
  have h4 : ¬ Lang Pattern.caretSpecification s := by
    intro h4
    obtain ⟨p, hp, hl, rfl⟩ := (caret_iff s).1 h4
    obtain ⟨t, ht⟩ := names _ "^".toList (cmp _ (by decide))
    exact h (.compare ht hp hl)
  have h5 : ¬ Lang Pattern.tildeSpecification s := by
    intro h5
    obtain ⟨o, ho, p, hp, hl, rfl⟩ := (tilde_iff s).1 h5
    obtain ⟨t, ht⟩ := names _ o (cmp o (by simp only [List.mem_cons, List.not_mem_nil, or_false] at ho ⊢; rcases ho with h | h <;> simp [h]))
    exact h (.compare ht hp hl)
  unfold parseSingleBy
  rw [firstOf_none (wildcard_none_by P h1), firstOf_none (f := tryParseWithBy P Pattern.orderSpecification) (tryParseWith_none_by P h2),
    firstOf_none (equal_none_by P h3), firstOf_none (f := tryParseWithBy P Pattern.caretSpecification) (tryParseWith_none_by P h4),
    firstOf_none (f := tryParseWithBy P Pattern.tildeSpecification) (tryParseWith_none_by P h5)]
  rfl

/-- What `parse_single` does with a string: it has no form, or the version parser reads one string, whatever the parser. -/
theorem single_by (s : PyStr) : (¬ SingleForm s ∧ ∀ P, parseSingleBy P s = .error .parseSpecificationError) ∨
    (∃ o t p, (o, t) ∈ compareWords ∧ p.WF ∧ p.local_ = none ∧ s = o ++ Spelling.text p ∧ ∀ P, parseSingleBy P s = makeOneBy P t p.text) ∨
    (∃ o t p, (o, t) ∈ equalWords ∧ p.WF ∧ s = o ++ Spelling.text p ∧ ∀ P, parseSingleBy P s = makeOneBy P t p.text) ∨
    (∃ o t p c, (o, t) ∈ wildcardWords ∧ p.WF ∧ p.EndsInZero ∧ (c = 'x' ∨ c = '*') ∧ s = o ++ Spelling.wild p c ∧ ∀ P, parseSingleBy P s = makeOneBy P t p.text) ∨
    (∃ o t p, (o, t) ∈ wildcardWords ∧ p.WF ∧ p.EndsInZero ∧ s = o ++ Spelling.wild p 'X' ∧ ∀ P, parseSingleBy P s = makeOneBy P t (p.wild 'X')) := by
  by_cases h : SingleForm s
  · right
    cases h with
    | @compare o t p ho hp hl => exact .inl ⟨o, t, p, ho, hp, hl, rfl, fun P => single_compare_by P ho hp hl⟩
    | @equal o t p ho hp => exact .inr (.inl ⟨o, t, p, ho, hp, rfl, fun P => single_equal_by P ho hp⟩)
    | @wildcard o t p c ho hp hz hc =>
      rcases hc with rfl | rfl | rfl
      · exact .inr (.inr (.inl ⟨o, t, p, _, ho, hp, hz, .inl rfl, rfl, fun P => single_wildcard_by P ho hp hz (.inl rfl)⟩))
      · exact .inr (.inr (.inr ⟨o, t, p, ho, hp, hz, rfl, fun P => single_upper_by P ho hp hz⟩))
      · exact .inr (.inr (.inl ⟨o, t, p, _, ho, hp, hz, .inr rfl, rfl, fun P => single_wildcard_by P ho hp hz (.inr rfl)⟩))
  · exact .inl ⟨h, fun P => single_no_form_by P h⟩

theorem makeOneBy_ok {P : VersionParser} {t : OpType} {w : PyStr} {x : Specifier} :
    makeOneBy P t w = .ok x ↔ ∃ v op, P w = .ok v ∧ Operator.create t v = .ok op ∧ x = .one op := by
  unfold makeOneBy mkOne
  cases P w with
  | error e => exact ⟨(fun h => by cases h), (fun ⟨_, _, h, _⟩ => by cases h)⟩
  | ok v =>
    have e : (do let v ← (.ok v : Except PyErr Version); do .ok (one (← Operator.create t v)) : Except PyErr Specifier) = (do .ok (one (← Operator.create t v))) := rfl
    rw [e]
    cases hc : Operator.create t v with
    | error e => exact ⟨(fun h => by cases h), (fun ⟨_, _, h, h', _⟩ => by cases h; rw [hc] at h'; cases h')⟩
    | ok op =>
      constructor
      · intro h
        cases h
        exact ⟨v, op, rfl, hc, rfl⟩
      · rintro ⟨_, _, h, h', rfl⟩
        cases h
        rw [hc] at h'
        cases h'
        rfl

theorem parseBy_default (s : PyStr) : parseBy Version.parse s = parse s := rfl

theorem single_ok_by (P : VersionParser) (s : PyStr) (x : Specifier) : parseSingleBy P s = .ok x ↔ ∃ op, SingleBy P s op ∧ x = .one op := by
  constructor
  · intro h
    rcases single_by s with ⟨-, h'⟩ | ⟨o, t, p, ho, hp, hl, rfl, h'⟩ | ⟨o, t, p, ho, hp, rfl, h'⟩ | ⟨o, t, p, c, ho, hp, hz, hc, rfl, h'⟩ |
      ⟨o, t, p, ho, hp, hz, rfl, h'⟩ <;> rw [h' P] at h
    · cases h
    · obtain ⟨v, op, h1, h2, rfl⟩ := makeOneBy_ok.1 h
      exact ⟨op, .compare ho hp hl h1 h2, rfl⟩
    · obtain ⟨v, op, h1, h2, rfl⟩ := makeOneBy_ok.1 h
      exact ⟨op, .equal ho hp h1 h2, rfl⟩
    · obtain ⟨v, op, h1, h2, rfl⟩ := makeOneBy_ok.1 h
      exact ⟨op, .wildcard ho hp hz hc h1 h2, rfl⟩
    · obtain ⟨v, op, h1, h2, rfl⟩ := makeOneBy_ok.1 h
      exact ⟨op, .upper ho hp hz h1 h2, rfl⟩
  · rintro ⟨op, h, rfl⟩
    cases h with
    | compare ho hp hl h1 h2 => rw [single_compare_by P ho hp hl]; exact makeOneBy_ok.2 ⟨_, _, h1, h2, rfl⟩
    | equal ho hp h1 h2 => rw [single_equal_by P ho hp]; exact makeOneBy_ok.2 ⟨_, _, h1, h2, rfl⟩
    | wildcard ho hp hz hc h1 h2 => rw [single_wildcard_by P ho hp hz hc]; exact makeOneBy_ok.2 ⟨_, _, h1, h2, rfl⟩
    | upper ho hp hz h1 h2 => rw [single_upper_by P ho hp hz]; exact makeOneBy_ok.2 ⟨_, _, h1, h2, rfl⟩

theorem SingleBy.form {P : VersionParser} {s : PyStr} {op : Operator} (h : SingleBy P s op) : SingleForm s := by
  cases h with
  | compare ho hp hl h1 h2 => exact .compare ho hp hl
  | equal ho hp h1 h2 => exact .equal ho hp
  | wildcard ho hp hz hc h1 h2 => exact .wildcard ho hp hz (hc.elim .inl (fun h => .inr (.inr h)))
  | upper ho hp hz h1 h2 => exact .wildcard ho hp hz (.inr (.inl rfl))

theorem all_ok_by (P : VersionParser) (s : PyStr) (x : Specifier) : parseAllBy P s = .ok x ↔ ∃ ops, AllBy P s ops ∧ x = ofAll ops := by
  constructor
  · intro h
    obtain ⟨a, l, e, hs⟩ := comma_parts s
    unfold parseAllBy at h
    rw [hs] at h
    cases hm : mapAll (parseSingleBy P) (a :: l) with
    | error e => rw [hm] at h; cases h
    | ok xs =>
      rw [hm] at h
      obtain ⟨ops, h1, rfl⟩ := forall₂_choose ((mapAll_ok_iff _ _ _).1 hm) (fun s x h => (single_ok_by P s x).1 h)
      have hne : ops ≠ [] := by rintro rfl; cases h1
      refine ⟨ops, ⟨a, l, e, h1⟩, ?_⟩
      have h : allOf (ops.map .one) = .ok x := h
      rw [ofAll_eq ops hne] at h
      cases h
      rfl
  · rintro ⟨ops, ⟨a, l, rfl, h⟩, rfl⟩
    have hpl : ∀ w ∈ a :: l, ',' ∉ w := by
      intro w hw
      obtain ⟨op, -, ho⟩ := forall₂_left h hw
      exact fun hc => (SingleBy.form ho).plain _ hc (by decide)
    unfold parseAllBy
    rw [splitComma_parts a l (hpl a (by simp)) (fun x hx => hpl x (by simp [hx]))]
    have hm : mapAll (parseSingleBy P) (a :: l) = .ok (ops.map .one) :=
      (mapAll_ok_iff _ _ _).2 (forall₂_map_right (h.imp (fun _ _ h => (single_ok_by P _ _).2 ⟨_, h, rfl⟩)))
    have hne : ops ≠ [] := by rintro rfl; cases h
    rw [hm]
    exact ofAll_eq ops hne

theorem AllBy.no_pipe {P : VersionParser} {s : PyStr} {ops : List Operator} (h : AllBy P s ops) : (∀ c ∈ s, c ≠ '|') ∧ s ≠ [] := by
  obtain ⟨a, l, rfl, h⟩ := h
  have hpl : ∀ w ∈ a :: l, SingleForm w := by
    intro w hw
    obtain ⟨op, -, ho⟩ := forall₂_left h hw
    exact SingleBy.form ho
  refine ⟨?_, ?_⟩
  · rintro c hc rfl
    rcases List.mem_append.1 hc with hc | hc
    · exact (hpl a (by simp)).plain _ hc (by decide)
    · obtain ⟨w, hw, hc⟩ := List.mem_flatten.1 hc
      obtain ⟨x, hx, rfl⟩ := List.mem_map.1 hw
      rcases List.mem_cons.1 hc with hc | hc
      · revert hc; decide
      · exact (hpl x (by simp [hx])).plain _ hc (by decide)
  · intro e
    exact (hpl a (by simp)).ne_nil (List.append_eq_nil_iff.1 e).1

theorem any_ok_by (P : VersionParser) (s : PyStr) (x : Specifier) : parseAnyBy P s = .ok x ↔ ∃ gs, AnyBy P s gs ∧ x = ofAny gs := by
  constructor
  · intro h
    obtain ⟨a, l, e, hs⟩ := pipe_parts s
    unfold parseAnyBy at h
    rw [hs] at h
    cases hm : mapAll (parseAllBy P) (a :: l.map (·.2)) with
    | error e => rw [hm] at h; cases h
    | ok xs =>
      rw [hm] at h
      obtain ⟨gs, h1, rfl⟩ := forall₂_choose ((mapAll_ok_iff _ _ _).1 hm) (fun s x h => (all_ok_by P s x).1 h)
      have hne : gs ≠ [] := by rintro rfl; cases h1
      refine ⟨gs, ⟨a, l, e, h1⟩, ?_⟩
      have h : anyOf (gs.map ofAll) = .ok x := h
      rw [ofAny_eq gs hne] at h
      cases h
      rfl
  · rintro ⟨gs, ⟨a, l, rfl, h⟩, rfl⟩
    have hpl : ∀ w ∈ a :: l.map (·.2), (∀ c ∈ w, c ≠ '|') ∧ w ≠ [] := by
      intro w hw
      obtain ⟨g, -, hg⟩ := forall₂_left h hw
      exact AllBy.no_pipe hg
    unfold parseAnyBy
    rw [splitPipes_pipes l a (hpl a (by simp)).1 (fun x hx => (hpl x.2 (List.mem_cons_of_mem _ (List.mem_map_of_mem hx))).1)
      (fun x hx => (hpl x.2 (List.mem_cons_of_mem _ (List.mem_map_of_mem (List.dropLast_subset _ hx)))).2)]
    have hm : mapAll (parseAllBy P) (a :: l.map (·.2)) = .ok (gs.map ofAll) :=
      (mapAll_ok_iff _ _ _).2 (forall₂_map_right (h.imp (fun w g h => (all_ok_by P w _).2 ⟨g, h, rfl⟩)))
    have hne : gs ≠ [] := by rintro rfl; cases h
    rw [hm]
    exact ofAny_eq gs hne

theorem parse_ok_by (P : VersionParser) (s : PyStr) (x : Specifier) :
    parseBy P s = .ok x ↔ ∃ gs, AnyBy P (s.filter (fun c => !isSpace c)) gs ∧ x = ofAny gs := by
  unfold parseBy
  rw [clearWhitespace_eq]
  exact any_ok_by P _ _

end Specifier
end Verif
