import Verif.Proofs.Splitting
/-!
# Strings of operators
-/

namespace Verif

open Re

/-! ### wildcards -/

/-- The string does not end in a digit. -/
def NoDigitEnd (a : PyStr) : Prop := ∀ c, a.getLast? = some c → ¬ IsDigit c

theorem NoDigitEnd.append {a b : PyStr} (hb : NoDigitEnd b) (h : b ≠ []) : NoDigitEnd (a ++ b) := by
  intro c hc
  rw [List.getLast?_append_of_ne_nil _ h] at hc
  exact hb c hc

theorem rstrip_digits {a d : PyStr} (ha : NoDigitEnd a) (hd : Digits d) : rstripBy isDecimal (a ++ d) = a := by
  unfold rstripBy
  rw [List.reverse_append, List.dropWhile_append_of_pos]
  · cases hr : a.reverse with
    | nil =>
      rw [List.reverse_eq_nil_iff] at hr
      subst hr
      rfl
    | cons c r =>
      have e : a = r.reverse ++ [c] := by rw [← List.reverse_reverse a, hr, List.reverse_cons]
      have : ¬ isDecimal c = true := by
        rw [isDecimal_iff]
        exact ha c (by rw [e]; simp)
      rw [List.dropWhile_cons_of_neg this, ← hr, List.reverse_reverse]
  · intro c hc
    rw [isDecimal_iff]
    exact hd.2 c (List.mem_reverse.1 hc)

theorem wildcardString_eq {a d : PyStr} (ha : NoDigitEnd a) (hd : Digits d) : wildcardString (a ++ d) = a ++ ['*'] := by
  unfold wildcardString
  rw [rstrip_digits ha hd, join_nil]
  simp

/-- How tags are spelled: a text that depends on the phase only, then the value. -/
structure Style (cls : TagClass) (f : Tag → TagSpelling) : Prop where
  value : ∀ t, ∃ s, (f t).value = some (s, intStr t.value)
  text : ∃ h : PyStr → PyStr, (∀ t, (f t).text = h t.phase ++ intStr t.value) ∧ ∀ t : Tag, t.Valid cls → h t.phase ≠ [] ∧ NoDigitEnd (h t.phase)

theorem style_long (cls : TagClass) : Style cls longTag := by
  refine ⟨fun t => ⟨['.'], rfl⟩, fun q => '-' :: q ++ ['.'], ?_, ?_⟩
  · intro t
    simp [longTag, TagSpelling.text, TagSpelling.body, TagSpelling.valueText]
  · intro t _
    refine ⟨by simp, NoDigitEnd.append ?_ (by simp)⟩
    intro c hc
    cases hc
    decide

theorem style_short (cls : TagClass) (sep : PyStr) : Style cls (shortTag sep) := by
  refine ⟨fun t => ⟨[], rfl⟩, fun q => sep ++ (dictGet Phases.toShort q).getD q, ?_, ?_⟩
  · intro t
    simp [shortTag, TagSpelling.text, TagSpelling.body, TagSpelling.valueText, Tag.short]
  · rintro t ⟨p, hp, e⟩
    have : ∀ cls, ∀ p ∈ TagClass.phases cls, ((dictGet Phases.toShort p.toList).getD p.toList) ≠ [] ∧
        ∀ c ∈ ((dictGet Phases.toShort p.toList).getD p.toList), ¬ IsDigit c := by
      intro cls
      cases cls <;> decide
    rw [e]
    obtain ⟨h1, h2⟩ := this cls p hp
    refine ⟨by simp [h1], NoDigitEnd.append ?_ h1⟩
    intro c hc
    exact h2 c (List.mem_of_getLast? hc)

theorem join_snoc (l : List PyStr) (a : PyStr) : join ['.'] (l ++ [a]) = (l.map (· ++ ['.'])).flatten ++ a := by
  induction l with
  | nil => simp [join]
  | cons b l ih =>
    rw [List.map_cons, List.flatten_cons, List.append_assoc, ← ih]
    unfold join
    cases l with
    | nil => simp [List.intercalate]
    | cons c l =>
      simp only [List.cons_append, List.intercalate_cons_cons]

theorem zeroLast_canonical {v : Version} (hv : v.Canonical) : v.zeroLast.Canonical := by
  obtain ⟨e, r, a, b, c, l⟩ := v
  obtain ⟨⟨v1, v2, v3, v4, v5⟩, h2, h3, h4, h5, h6, h7⟩ := hv
  dsimp only at *
  have val : ∀ {cls : TagClass} {t : Tag}, t.Valid cls → Tag.Valid cls { t with value := 0 } := fun h => h
  cases c with
  | some t =>
    refine ⟨⟨v1, v2, v3, ?_, v5⟩, h2, h3, h4, h5, ?_, h7⟩
    · rintro _ ⟨⟩; exact val (v4 t rfl)
    · rintro _ ⟨⟩; exact Int.le_refl _
  | none =>
    cases b with
    | some t =>
      refine ⟨⟨v1, v2, ?_, v4, v5⟩, h2, h3, h4, ?_, h6, h7⟩
      · rintro _ ⟨⟩; exact val (v3 t rfl)
      · rintro _ ⟨⟩; exact Int.le_refl _
    | none =>
      cases a with
      | some t =>
        refine ⟨⟨v1, ?_, v3, v4, v5⟩, h2, h3, ?_, h5, h6, h7⟩
        · rintro _ ⟨⟩; exact val (v2 t rfl)
        · rintro _ ⟨⟩; exact Int.le_refl _
      | none =>
        refine ⟨⟨by simp [Version.zeroLast], v2, v3, v4, v5⟩, h2, ?_, h4, h5, h6, h7⟩
        intro x hx
        simp only [Version.zeroLast, List.mem_append, List.mem_singleton] at hx
        rcases hx with hx | rfl
        · exact h3 x (List.dropLast_subset _ hx)
        · exact Int.le_refl _

theorem wild_canonical {f g h : Tag → TagSpelling} (hf : Style .pre f) (hg : Style .post g) (hh : Style .dev h) {v : Version}
    (hv : v.Canonical) (hl : v.local_ = none) :
    (canonicalSpelling f g h v.zeroLast).EndsInZero ∧
      wildcardString (canonicalSpelling f g h v).text = (canonicalSpelling f g h v.zeroLast).wild '*' := by
  have hz := zeroLast_canonical hv
  have fin : ∀ {a d : PyStr}, NoDigitEnd a → Digits d → (canonicalSpelling f g h v).text = a ++ d →
      (canonicalSpelling f g h v.zeroLast).text = a ++ ['0'] →
      wildcardString (canonicalSpelling f g h v).text = (canonicalSpelling f g h v.zeroLast).wild '*' := by
    intro a d ha hd e1 e2
    unfold Spelling.wild
    rw [e1, e2, wildcardString_eq ha hd, List.dropLast_concat]
  have e1 := text_canonical f g h hv.valid
  have e2 := text_canonical f g h hz.valid
  obtain ⟨e, ⟨r⟩, a, b, c, l⟩ := v
  cases hl
  cases c with
  | some t =>
    obtain ⟨hd, t1, t2⟩ := hh.text
    obtain ⟨n1, n2⟩ := t2 t (hv.valid.dev t rfl)
    refine ⟨And.intro rfl (hh.value _), fin (a := ((if e.value = 0 then [] else intStr e.value ++ ['!']) ++ (⟨r⟩ : Release).toStr ++ (a.map (fun t => (f t).text)).getD [] ++ (b.map (fun t => (g t).text)).getD []) ++ hd t.phase) (d := intStr t.value)
      (NoDigitEnd.append n2 n1) (intStr_digits (hv.dev t rfl)) (e1.trans ?_) (e2.trans ?_)⟩
    · simp only [Option.map_some, Option.getD_some, Option.map_none, Option.getD_none, List.append_nil, t1, ← List.append_assoc]
    · simp only [Version.zeroLast, Option.map_some, Option.getD_some, Option.map_none, Option.getD_none, List.append_nil, t1, ← List.append_assoc]
      rfl
  | none =>
    cases b with
    | some t =>
      obtain ⟨hd, t1, t2⟩ := hg.text
      obtain ⟨n1, n2⟩ := t2 t (hv.valid.post t rfl)
      refine ⟨And.intro rfl (hg.value _), fin (a := ((if e.value = 0 then [] else intStr e.value ++ ['!']) ++ (⟨r⟩ : Release).toStr ++ (a.map (fun t => (f t).text)).getD []) ++ hd t.phase) (d := intStr t.value)
      (NoDigitEnd.append n2 n1) (intStr_digits (hv.post t rfl)) (e1.trans ?_) (e2.trans ?_)⟩
      · simp only [Option.map_some, Option.getD_some, Option.map_none, Option.getD_none, List.append_nil, t1, ← List.append_assoc]
      · simp only [Version.zeroLast, Option.map_some, Option.getD_some, Option.map_none, Option.getD_none, List.append_nil, t1, ← List.append_assoc]
        rfl
    | none =>
      cases a with
      | some t =>
        obtain ⟨hd, t1, t2⟩ := hf.text
        obtain ⟨n1, n2⟩ := t2 t (hv.valid.pre t rfl)
        refine ⟨And.intro rfl (hf.value _), fin (a := ((if e.value = 0 then [] else intStr e.value ++ ['!']) ++ (⟨r⟩ : Release).toStr) ++ hd t.phase) (d := intStr t.value)
      (NoDigitEnd.append n2 n1) (intStr_digits (hv.pre t rfl)) (e1.trans ?_) (e2.trans ?_)⟩
        · simp only [Option.map_some, Option.getD_some, Option.map_none, Option.getD_none, List.append_nil, t1, ← List.append_assoc]
        · simp only [Version.zeroLast, Option.map_some, Option.getD_some, Option.map_none, Option.getD_none, List.append_nil, t1, ← List.append_assoc]
          rfl
      | none =>
        have hne : r ≠ [] := hv.valid.release
        obtain ⟨init, x, rfl⟩ : ∃ init x, r = init ++ [x] := ⟨r.dropLast, r.getLast hne, (List.dropLast_append_getLast hne).symm⟩
        have hx : 0 ≤ x := hv.release x (by simp)
        let A : PyStr := (if e.value = 0 then [] else intStr e.value ++ ['!']) ++ ((init.map intStr).map (· ++ ['.'])).flatten
        have hA : NoDigitEnd A := by
          rcases List.eq_nil_or_concat init with rfl | ⟨i, y, rfl⟩
          · simp only [A, List.map_nil, List.flatten_nil, List.append_nil]
            split
            · intro c hc; cases hc
            · refine NoDigitEnd.append ?_ (by simp)
              intro c hc; cases hc; decide
          · have : A = ((if e.value = 0 then [] else intStr e.value ++ ['!']) ++ ((i.map intStr).map (· ++ ['.'])).flatten ++ intStr y) ++ ['.'] := by
              simp [A]
            rw [this]
            refine NoDigitEnd.append ?_ (by simp)
            intro c hc; cases hc; decide
        refine ⟨⟨rfl, ?_⟩, fin hA (intStr_digits hx) (e1.trans ?_) (e2.trans ?_)⟩
        · simp only [Version.zeroLast, canonicalSpelling, Option.map_none, List.dropLast_concat]
          cases init with
          | nil => rfl
          | cons y i =>
            simp only [List.cons_append, List.headD_cons, List.tail_cons, List.map_append, List.map_cons, List.map_nil]
            rw [List.getLast_cons (by simp), List.getLast_append_right (by simp)]
            rfl
        · simp only [Release.toStr, List.map_append, List.map_cons, List.map_nil, join_snoc, Option.map_none, Option.getD_none, List.append_nil, A, List.append_assoc]
        · simp only [Version.zeroLast, List.dropLast_concat, Release.toStr, List.map_append, List.map_cons, List.map_nil, join_snoc, Option.map_none, Option.getD_none, List.append_nil, A, List.append_assoc]
          rfl

/-! ### operators -/

/-- The operators of each kind. -/
theorem op_words : ∀ t : OpType, (t.isWildcard = true → (t.string, t) ∈ wildcardWords) ∧
    (t.isWildcard = false → (t.string, t) ∈ compareWords ∨ (t.string, t) ∈ equalWords) ∧
    ((t = .equal ∨ t = .doubleEqual ∨ t = .notEqual) → (t.string, t) ∈ equalWords) ∧ (∀ c ∈ t.string, IsOpChar c) := by
  intro t
  cases t <;> decide

theorem op_plain {o : PyStr} (ho : ∀ c ∈ o, IsOpChar c) : Plain o := by
  intro c hc
  have : ∀ c ∈ "<>=!~^".toList, c ∉ specials := by decide
  exact this c (ho c hc)

theorem wild_plain {p : Spelling} (hp : p.WF) {c : Char} (hc : IsWildcard c) : Plain (p.wild c) := by
  apply Plain.append
  · intro x hx
    exact text_specials hp (List.dropLast_subset _ hx)
  · intro x hx
    rw [List.mem_singleton] at hx
    subst hx
    rcases hc with rfl | rfl | rfl <;> decide

/-- The space after the operator is dropped. -/
theorem parse_clear (s : PyStr) : Specifier.parse s = Specifier.parse (clearWhitespace s) := by
  unfold Specifier.parse
  congr 1
  rw [clearWhitespace_eq, clearWhitespace_eq, List.filter_filter]
  simp

theorem join_space (o w : PyStr) : clearWhitespace (join [' '] [o, w]) = clearWhitespace (o ++ w) := by
  rw [join_cons]
  simp only [List.map_cons, List.map_nil, List.flatten_cons, List.flatten_nil, List.append_nil]
  rw [clear_append, clear_append, clear_append]
  rfl

theorem join_none (o w : PyStr) : join [] [o, w] = o ++ w := by
  rw [join_nil]
  simp

/-- The text of the version in the string of an operator. -/
def opText (t : OpType) (w : PyStr) : PyStr := if t.isWildcard then wildcardString w else w

theorem parse_opStr (o : Operator) : Specifier.parse o.toStr = Specifier.parse (o.type.string ++ opText o.type o.version.toStr) := by
  unfold Operator.toStr opText
  dsimp only
  cases o.type.isUnary with
  | true => rw [if_pos rfl, join_none]
  | false =>
    rw [if_neg (by decide), parse_clear, join_space, ← parse_clear]

theorem parse_opShortStr (o : Operator) : Specifier.parse o.toShortStr = Specifier.parse (o.type.string ++ opText o.type o.version.toShortStr) := by
  unfold Operator.toShortStr opText
  dsimp only
  rw [join_none]

/-- What the string of an operator is read as, given a spelling of its version. -/
theorem parse_simple {t : OpType} (ht : t.isWildcard = false) {p : Spelling} (hp : p.WF)
    (hl : p.local_ = none ∨ t = .equal ∨ t = .doubleEqual ∨ t = .notEqual) :
    Specifier.parse (t.string ++ opText t p.text) = Specifier.makeOne t p.text := by
  obtain ⟨-, h2, h3, h4⟩ := op_words t
  unfold opText
  rw [if_neg (by simp [ht]), parse_plain (Plain.append (op_plain h4) (fun c hc => text_specials hp hc))]
  rcases hl with hl | hl
  · rcases h2 ht with h | h
    · exact Specifier.single_compare h hp hl
    · exact Specifier.single_equal h hp
  · exact Specifier.single_equal (h3 hl) hp

theorem parse_wild {t : OpType} (ht : t.isWildcard = true) {p q : Spelling} (hq : q.WF) (hz : q.EndsInZero)
    (h : wildcardString p.text = q.wild '*') : Specifier.parse (t.string ++ opText t p.text) = Specifier.makeOne t q.text := by
  obtain ⟨h1, -, -, h4⟩ := op_words t
  unfold opText
  rw [if_pos ht, h, parse_plain (Plain.append (op_plain h4) (wild_plain hq (.inr (.inr rfl))))]
  exact Specifier.single_wildcard (h1 ht) hq hz (.inr rfl)

theorem makeOne_ok {t : OpType} {w : PyStr} {v : Version} (h : Version.parse w = .ok v) (hc : Operator.create t v = .ok ⟨t, v⟩) :
    Specifier.makeOne t w = .ok (.one ⟨t, v⟩) := by
  unfold Specifier.makeOne Specifier.mkOne
  rw [h]
  show (do Except.ok (Specifier.one (← Operator.create t v))) = _
  rw [hc]
  rfl

theorem create_wild {t : OpType} (ht : t.isWildcard = true) (v : Version) : Operator.create t v = .ok ⟨t, v⟩ := by
  unfold Operator.create
  rw [if_neg]
  rintro ⟨rfl, -⟩
  cases ht

/-! ### failures -/

/-- The letter n before any local segment. -/
def HasN (w : PyStr) : Prop := 'n' ∈ w.takeWhile (fun c => decide (c ≠ '+'))

theorem hasN_op {o w : PyStr} (ho : ∀ c ∈ o, IsOpChar c) : HasN (o ++ w) ↔ HasN w := by
  have h1 : ∀ c ∈ o, decide (c ≠ '+') = true := by
    intro c hc
    have : ∀ c ∈ "<>=!~^".toList, decide (c ≠ '+') = true := by decide
    exact this c (ho c hc)
  unfold HasN
  rw [List.takeWhile_append_of_pos h1, List.mem_append]
  constructor
  · rintro (h | h)
    · exact absurd (ho _ h) (by decide)
    · exact h
  · exact .inr

theorem hasN_append {a b : PyStr} (h : HasN a) : HasN (a ++ b) := by
  unfold HasN at *
  rw [List.takeWhile_append]
  split
  · exact List.mem_append_left _ ((List.takeWhile_prefix _).subset h)
  · exact h

theorem mem_takeWhile_imp {p : Char → Bool} {l : PyStr} {x : Char} (h : x ∈ l.takeWhile p) : p x = true :=
  List.all_eq_true.1 List.all_takeWhile x h

theorem hasN_wildcard {w : PyStr} (h : HasN w) : HasN (wildcardString w) := by
  unfold wildcardString
  rw [join_none]
  apply hasN_append
  have e : w = rstripBy isDecimal w ++ (w.reverse.takeWhile isDecimal).reverse := by
    unfold rstripBy
    rw [← List.reverse_append, List.takeWhile_append_dropWhile, List.reverse_reverse]
  have hd : 'n' ∉ (w.reverse.takeWhile isDecimal).reverse := by
    intro hn
    rw [List.mem_reverse] at hn
    exact absurd (mem_takeWhile_imp hn) (by decide)
  generalize rstripBy isDecimal w = r at *
  generalize (w.reverse.takeWhile isDecimal).reverse = d at *
  subst e
  unfold HasN at h ⊢
  rw [List.takeWhile_append] at h
  split at h
  · next hl =>
    rcases List.mem_append.1 h with h | h
    · rw [List.IsPrefix.eq_of_length (List.takeWhile_prefix _) hl]
      exact h
    · exact absurd ((List.takeWhile_prefix _).subset h) hd
  · exact h

theorem single_hasN {s : PyStr} (h : HasN s) : Specifier.parseSingle s = .error .parseSpecificationError := by
  have h1 : ∀ e ∈ compareWords, ∀ c ∈ e.1, IsOpChar c := by decide
  have h2 : ∀ e ∈ equalWords, ∀ c ∈ e.1, IsOpChar c := by decide
  have h3 : ∀ e ∈ wildcardWords, ∀ c ∈ e.1, IsOpChar c := by decide
  rcases Specifier.single_cases s with ⟨o, t, p, ho, hp, -, rfl⟩ | ⟨o, t, p, ho, hp, rfl⟩ | ⟨o, t, p, c, ho, hp, hz, hc, rfl⟩ | h
  · rw [hasN_op (h1 _ ho)] at h
    exact absurd h (no_n hp)
  · rw [hasN_op (h2 _ ho)] at h
    exact absurd h (no_n hp)
  · rw [hasN_op (h3 _ ho)] at h
    have := (List.takeWhile_prefix _).subset h
    unfold Spelling.wild at this
    rw [List.mem_append, List.mem_singleton] at this
    rcases this with hn | hn
    · have hn := List.dropLast_subset _ hn
      obtain ⟨m, hm⟩ := (public_iff p.text).2 ⟨p, hp, hz.1, rfl⟩
      exact absurd (Re.allows_of_mem _ _ _ hm 'n' hn) (by decide)
    · subst hn
      rcases hc with h | h | h <;> exact absurd h (by decide)
  · exact h

theorem single_local {o : PyStr} {t : OpType} (ho : (o, t) ∈ compareWords) {p : Spelling} (hp : p.WF) (hl : p.local_ ≠ none) :
    Specifier.parseSingle (o ++ p.text) = .error .parseSpecificationError := by
  have h0 : ∀ e ∈ compareWords, (∀ c ∈ e.1, IsOpChar c) ∧ e.1 ∉ equalWords.map (·.1) := by decide
  obtain ⟨h0, h0'⟩ := h0 _ ho
  have h1 : ∀ e ∈ compareWords, ∀ c ∈ e.1, IsOpChar c := by decide
  have h2 : ∀ e ∈ equalWords, ∀ c ∈ e.1, IsOpChar c := by decide
  have h3 : ∀ e ∈ wildcardWords, ∀ c ∈ e.1, IsOpChar c := by decide
  have plus : '+' ∈ p.text := by
    cases hpl : p.local_ with
    | none => exact absurd hpl hl
    | some l => simp [Spelling.text, hpl, Spelling.localText, Spelling.optText]
  rcases Specifier.single_cases (o ++ p.text) with ⟨o', t', q, ho', hq, hql, e⟩ | ⟨o', t', q, ho', hq, e⟩ | ⟨o', t', q, c, ho', hq, hz, hc, e⟩ | h
  · obtain ⟨-, e⟩ := op_unique h0 (h1 _ ho') (text_no_op hp) (text_no_op hq) e
    rw [e] at plus
    exact absurd rfl (Specifier.public_chars hq hql plus).2
  · obtain ⟨e, -⟩ := op_unique h0 (h2 _ ho') (text_no_op hp) (text_no_op hq) e
    exact absurd (List.mem_map_of_mem (f := (·.1)) ho') (e ▸ h0')
  · obtain ⟨-, e⟩ := op_unique h0 (h3 _ ho') (text_no_op hp) (wild_no_op hq hc) e
    exact absurd e (Specifier.text_ne_wild hp hq hz hc)
  · exact h

theorem single_wild_local {o w : PyStr} (hp : '+' ∈ w) : Specifier.parseSingle (o ++ wildcardString w) = .error .parseSpecificationError := by
  have hs : '+' ∈ o ++ wildcardString w ∧ '*' ∈ o ++ wildcardString w := by
    unfold wildcardString
    rw [join_none]
    have e : w = rstripBy isDecimal w ++ (w.reverse.takeWhile isDecimal).reverse := by
      unfold rstripBy
      rw [← List.reverse_append, List.takeWhile_append_dropWhile, List.reverse_reverse]
    rw [e, List.mem_append] at hp
    rcases hp with h | h
    · simp [h]
    · rw [List.mem_reverse] at h
      exact absurd (mem_takeWhile_imp h) (by decide)
  have h1 : ∀ e ∈ compareWords, ∀ c ∈ e.1, IsOpChar c := by decide
  have h2 : ∀ e ∈ equalWords, ∀ c ∈ e.1, IsOpChar c := by decide
  have h3 : ∀ e ∈ wildcardWords, ∀ c ∈ e.1, IsOpChar c := by decide
  have star : ∀ (o : PyStr) (p : Spelling), (∀ c ∈ o, IsOpChar c) → p.WF → '*' ∉ o ++ p.text := by
    intro o p ho hp h
    rcases List.mem_append.1 h with h | h
    · exact absurd (ho _ h) (by decide)
    · exact absurd (Re.allows_of_mem _ _ _ ((version_iff _ _).2 ⟨p, hp, rfl, rfl⟩) _ h) (by decide)
  generalize o ++ wildcardString w = s at hs
  rcases Specifier.single_cases s with ⟨o, t, p, ho, hp, -, rfl⟩ | ⟨o, t, p, ho, hp, rfl⟩ | ⟨o, t, p, c, ho, hp, hz, hc, rfl⟩ | h
  · exact absurd hs.2 (star o p (h1 _ ho) hp)
  · exact absurd hs.2 (star o p (h2 _ ho) hp)
  · rcases List.mem_append.1 hs.1 with h | h
    · exact absurd (h3 _ ho _ h) (by decide)
    · unfold Spelling.wild at h
      rw [List.mem_append, List.mem_singleton] at h
      rcases h with h | h
      · exact absurd rfl (Specifier.public_chars hp hz.1 (List.dropLast_subset _ h)).2
      · subst h
        rcases hc with h | h | h <;> exact absurd h (by decide)
  · exact h

end Verif
