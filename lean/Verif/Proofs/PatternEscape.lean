import Verif.Proofs.PatternText
/-!
# What escaped strings match, alone, in classes and as alternatives
-/

namespace Verif.Rx

/-- The characters that `re.escape` puts a backslash before. -/
def special : PyStr := "()[]{}?*+-|^$\\.&~# \t\n\r\x0b\x0c".toList

theorem special_of_mem {c : Char} {l : PyStr} (hl : ∀ c ∈ l, c ∈ special) (h : c ∉ special) : ∀ d ∈ l, c ≠ d :=
  fun d hd e => h (e ▸ hl d hd)

theorem parseAtom_plain (m : Nat) {c : Char} (s : PyStr) (h : c ∉ special) :
    parseAtom (m + 1) (c :: s) = some (literal c, s) := by
  have h' := special_of_mem (l := ".\\[{()*+?^$|#".toList) (by decide) h
  rw [parseAtom.eq_8 m c s (fun _ e => absurd e (h' _ (by decide))) (fun _ e => absurd e (h' _ (by decide)))
    (fun e => absurd e (h' _ (by decide))) (fun _ _ e => absurd e (h' _ (by decide)))
    (fun e => absurd e (h' _ (by decide))) (fun e => absurd e (h' _ (by decide)))]
  exact if_neg fun hc => h' c hc rfl

theorem parseAtom_escape (m : Nat) {c : Char} (s : PyStr) (h : escapable c = true) :
    parseAtom (m + 1) ('\\' :: c :: s) = some (literal c, s) := by
  simp [parseAtom, h, literal]

theorem escapable_special {c : Char} (h : c ∈ special) : escapable c = true := by
  revert c; decide

theorem escape_cons (c : Char) (s : PyStr) :
    PatternText.escape (c :: s) = (if c ∈ special then ['\\', c] else [c]) ++ PatternText.escape s := rfl

theorem parseAtom_escaped (m : Nat) (c : Char) (t : PyStr) :
    parseAtom (m + 1) ((if c ∈ special then ['\\', c] else [c]) ++ t) = some (literal c, t) := by
  split
  case isTrue h => exact parseAtom_escape m t (escapable_special h)
  case isFalse h => exact parseAtom_plain m t h

theorem skip_of_head {c : Char} {s : PyStr} (h : ∀ d ∈ " \t\n\r\x0b\x0c".toList, c ≠ d) : skip (c :: s) = c :: s := by
  rw [skip, List.dropWhile_cons_of_neg]
  exact fun e => h c (of_decide_eq_true e) rfl

/-- What may follow an escaped string: nothing, another alternative, or a closing parenthesis. -/
def Ends (t : PyStr) : Prop := t = [] ∨ (∃ s, t = '|' :: s) ∨ ∃ s, t = ')' :: s

theorem parseRepeat_other (a : Rx) {u : PyStr} (hu : ∀ c v, u = c :: v → ∀ d ∈ " \t\n\r\x0b\x0c?*+{".toList, c ≠ d) :
    parseRepeat a u = some (a, u) := by
  cases u with
  | nil => rfl
  | cons c v =>
    have h := hu c v rfl
    have hs : skip (c :: v) = c :: v := skip_of_head fun d hd => h d (by revert d; decide)
    have h1 := h '?' (by decide)
    have h2 := h '*' (by decide)
    have h3 := h '+' (by decide)
    have h4 := h '{' (by decide)
    rw [parseRepeat, hs]
    split
    · rename_i e; cases e; exact absurd rfl h1
    · rename_i e; cases e; exact absurd rfl h2
    · rename_i e; cases e; exact absurd rfl h3
    · rename_i e; cases e; exact absurd rfl h4
    · rfl

/-- An escaped string does not begin with a space or a repetition. -/
theorem parseRepeat_escape (a : Rx) (s : PyStr) {t : PyStr} (ht : Ends t) :
    parseRepeat a (PatternText.escape s ++ t) = some (a, PatternText.escape s ++ t) := by
  refine parseRepeat_other a fun c v e => ?_
  cases s with
  | nil =>
    rcases ht with rfl | ⟨s, rfl⟩ | ⟨s, rfl⟩
    · cases e
    · cases e; decide
    · cases e; decide
  | cons d s =>
    rw [escape_cons] at e
    split at e
    · cases e; decide
    case isFalse h =>
      cases e
      exact special_of_mem (by decide) h

theorem seqs_literals_ne (c : Char) (s : PyStr) : seqs ((c :: s).map literal) ≠ eps := by
  cases s with
  | nil => exact fun h => by cases h
  | cons d s => exact fun h => by cases h

/-- The parser reads an escaped string as the literals. -/
theorem parseSeq_escape (s : PyStr) {t : PyStr} (ht : Ends t) : ∀ n, s.length < n →
    parseSeq n (PatternText.escape s ++ t) = some (seqs (s.map literal), t) := by
  induction s with
  | nil =>
    rintro (_ | n) hn
    · exact absurd hn (by simp)
    · rcases ht with rfl | ⟨s, rfl⟩ | ⟨s, rfl⟩
      · rfl
      · show parseSeq (n + 1) ('|' :: s) = _
        rw [parseSeq, skip_of_head (by decide)]
        rfl
      · show parseSeq (n + 1) (')' :: s) = _
        rw [parseSeq, skip_of_head (by decide)]
        rfl
  | cons c s ih =>
    rintro (_ | n) hn
    · exact absurd hn (by simp)
    obtain ⟨n, rfl⟩ : ∃ m, n = m + 1 := ⟨n - 1, by simp at hn; omega⟩
    have ih := ih (n + 1) (by simpa using hn)
    have hskip : skip (PatternText.escape (c :: s) ++ t) = PatternText.escape (c :: s) ++ t := by
      rw [escape_cons]
      split
      · exact skip_of_head (by decide)
      case isFalse h => exact skip_of_head (special_of_mem (by decide) h)
    have hfirst : ∀ u, PatternText.escape (c :: s) ++ t ≠ '|' :: u ∧ PatternText.escape (c :: s) ++ t ≠ ')' :: u ∧
        PatternText.escape (c :: s) ++ t ≠ [] := by
      intro u
      rw [escape_cons]
      split
      · exact ⟨fun h => absurd (List.cons.inj h).1 (by decide), fun h => absurd (List.cons.inj h).1 (by decide), fun h => by cases h⟩
      case isFalse h =>
        have h' := special_of_mem (l := special) (fun _ h => h) h
        exact ⟨fun e => h' '|' (by decide) (List.cons.inj e).1, fun e => h' ')' (by decide) (List.cons.inj e).1, fun h => by cases h⟩
    have hatom := parseAtom_escaped n c (PatternText.escape s ++ t)
    rw [← List.append_assoc, ← escape_cons] at hatom
    rw [parseSeq, hskip]
    split
    · rename_i e; exact absurd e (hfirst []).2.2
    · rename_i u e; exact absurd e (hfirst u).1
    · rename_i u e; exact absurd e (hfirst u).2.1
    · rw [hatom]
      simp only [parseRepeat_escape _ _ ht, ih]
      cases s with
      | nil => rfl
      | cons d s =>
        have hne := seqs_literals_ne d s
        split
        · rename_i e; cases e
        · rename_i e
          exact absurd (congrArg Prod.fst (Option.some.inj e)) hne
        · rename_i e
          cases e
          rfl

/-- The parser reads escaped strings between bars as alternatives. -/
theorem parseAlt_union (l : List PyStr) (hl : l ≠ []) : ∀ n, (PatternText.union (l.map PatternText.escape)).length + 1 < n →
    parseAlt n (PatternText.union (l.map PatternText.escape)) = some (alts (l.map fun s => seqs (s.map literal)), []) := by
  have long : ∀ s : PyStr, s.length ≤ (PatternText.escape s).length := by
    intro s
    induction s with
    | nil => simp
    | cons c s ih => rw [escape_cons]; split <;> simp <;> omega
  induction l with
  | nil => exact absurd rfl hl
  | cons s l ih =>
    rintro (_ | n) hn
    · exact absurd hn (by simp)
    cases l with
    | nil =>
      have e : PatternText.union ([s].map PatternText.escape) = PatternText.escape s ++ [] := by
        simp [PatternText.union, join, List.intercalate]
      have := long s
      rw [e] at hn ⊢
      rw [parseAlt, parseSeq_escape s (Or.inl rfl) n (by simp at hn; omega)]
      rfl
    | cons s' l =>
      have e : PatternText.union ((s :: s' :: l).map PatternText.escape) =
          PatternText.escape s ++ '|' :: PatternText.union ((s' :: l).map PatternText.escape) := by
        simp [PatternText.union, join, List.intercalate]
      have := long s
      rw [e] at hn ⊢
      simp only [List.length_append, List.length_cons] at hn
      rw [parseAlt, parseSeq_escape s (Or.inr (Or.inl ⟨_, rfl⟩)) n (by omega)]
      simp only [ih (by simp) n (by omega)]
      rfl

theorem parse_union (l : List PyStr) (hl : l ≠ []) :
    parse (PatternText.union (l.map PatternText.escape)) = some (alts (l.map fun s => seqs (s.map literal))) := by
  rw [parse, parseAlt_union l hl _ (by omega)]

/-- The parser reads an escaped string in brackets as the class of its characters. -/
theorem parseClass_escape (s t : PyStr) : parseClass (PatternText.escape s ++ ']' :: t) = some (s.map fun c => (c, c), t) := by
  induction s with
  | nil => exact parseClass.eq_2 t
  | cons c s ih =>
    rw [escape_cons]
    split
    case isTrue h =>
      simp [parseClass, escapable_special h, ih]
    case isFalse h =>
      have h' := special_of_mem (l := special) (fun _ h => h) h
      have next : ∀ d u, PatternText.escape s ++ ']' :: t = d :: u → d ≠ '-' := by
        intro d u e
        cases s with
        | nil => cases e; decide
        | cons c s =>
          rw [escape_cons] at e
          split at e
          · cases e; decide
          case isFalse h => cases e; exact special_of_mem (l := special) (fun _ h => h) h _ (by decide)
      show parseClass (c :: (PatternText.escape s ++ ']' :: t)) = _
      rw [parseClass.eq_8]
      · rw [ih]; rfl
      all_goals first
        | exact fun e => absurd e (h' _ (by decide))
        | exact fun _ _ e => absurd e (h' _ (by decide))
        | exact fun d u e => absurd rfl (next _ _ e)

theorem parse_set (s : PyStr) (hs : s ≠ []) :
    parse (PatternText.set (PatternText.escape s)) = some (cls (s.map fun c => (c, c))) := by
  have e : PatternText.set (PatternText.escape s) = '[' :: (PatternText.escape s ++ ']' :: []) := by simp [PatternText.set]
  rw [parse, e]
  obtain ⟨n, hn⟩ : ∃ n, 3 * ('[' :: (PatternText.escape s ++ ']' :: [])).length + 3 = n + 3 := ⟨_, rfl⟩
  obtain ⟨c, s, rfl⟩ := List.exists_cons_of_ne_nil hs
  have hatom : parseAtom (n + 1) ('[' :: (PatternText.escape (c :: s) ++ ']' :: [])) =
      some (cls ((c :: s).map fun c => (c, c)), []) := by
    rw [parseAtom.eq_4, parseClass_escape]
    rfl
  have hseq : parseSeq (n + 2) ('[' :: (PatternText.escape (c :: s) ++ ']' :: [])) =
      some (cls ((c :: s).map fun c => (c, c)), []) := by
    rw [parseSeq, skip_of_head (by decide)]
    split
    · rename_i e; cases e
    · rename_i e; exact absurd (List.cons.inj e).1 (by decide)
    · rename_i e; exact absurd (List.cons.inj e).1 (by decide)
    · rw [hatom]
      rfl
  rw [hn, parseAlt, hseq]

theorem run_alts (n : Nat) {l : List Rx} (hl : l ≠ []) (st : Re.State) : (alts l).run n st = l.flatMap fun a => a.run n st := by
  induction l with
  | nil => exact absurd rfl hl
  | cons a l ih =>
    cases l with
    | nil => simp [alts]
    | cons b l =>
      show (Rx.alt a (alts (b :: l))).run n st = _
      rw [run, ih (by simp)]
      rfl

/-- Literals without case match the string, and nothing else. -/
theorem run_literals (n : Nat) (s : PyStr) (h : ∀ c ∈ s, Caseless c) (t : PyStr) (caps : Re.Caps) (st : Re.State) :
    st ∈ (seqs (s.map literal)).run n (t, caps) ↔ t = s ++ st.1 ∧ st.2 = caps := by
  induction s generalizing t with
  | nil =>
    show st ∈ [(t, caps)] ↔ _
    rw [List.mem_singleton]
    constructor
    · rintro rfl; exact ⟨rfl, rfl⟩
    · rintro ⟨rfl, rfl⟩; rfl
  | cons c s ih =>
    have hc : ∀ st', st' ∈ (literal c).run n (t, caps) ↔ t = c :: st'.1 ∧ st'.2 = caps := by
      intro st'
      rw [literal, run]
      cases t with
      | nil => simp
      | cons d t =>
        have := literal_has (h c (by simp)) d
        by_cases hd : d = c
        · subst hd
          simp only [this.2 rfl, if_true, List.mem_singleton, List.cons.injEq, true_and]
          constructor
          · rintro rfl; exact ⟨rfl, rfl⟩
          · rintro ⟨rfl, rfl⟩; rfl
        · simp [mt this.1 hd, hd]
    have ih := ih (fun c hc => h c (List.mem_cons_of_mem _ hc))
    cases s with
    | nil => simpa [seqs] using hc st
    | cons d s =>
      show st ∈ (Rx.seq (literal c) (seqs ((d :: s).map literal))).run n (t, caps) ↔ _
      rw [run, List.mem_flatMap]
      constructor
      · rintro ⟨⟨u, caps'⟩, h1, h2⟩
        obtain ⟨rfl, rfl⟩ := (hc _).1 h1
        obtain ⟨rfl, h3⟩ := (ih u).1 h2
        exact ⟨rfl, h3⟩
      · rintro ⟨rfl, h3⟩
        exact ⟨(d :: s ++ st.1, caps), (hc _).2 ⟨rfl, rfl⟩, (ih _).2 ⟨rfl, h3⟩⟩

/-- A search for a match of the whole string among matches that capture nothing. -/
theorem fullmatch_plain (a : Rx) (t : PyStr) (p : Prop) [Decidable p]
    (hcaps : ∀ st ∈ a.run t.length (t, []), st.2 = []) (hp : p ↔ ([], []) ∈ a.run t.length (t, [])) :
    a.fullmatch t = if p then some [] else none := by
  rw [fullmatch]
  cases e : (a.run t.length (t, [])).find? fun st => st.1.isEmpty with
  | none =>
    rw [if_neg]
    · rfl
    · intro h
      exact absurd rfl (List.find?_eq_none.1 e _ (hp.1 h))
  | some st =>
    have h1 := List.find?_some e
    have h2 := List.mem_of_find?_eq_some e
    obtain ⟨s, caps⟩ := st
    have hs : s = [] := by simpa using h1
    have hc : caps = [] := hcaps _ h2
    subst hs hc
    rw [if_pos (hp.2 h2)]
    rfl

end Verif.Rx
