import Verif.Proofs.SpecParsing
/-!
# Whitespace, commas and pipes
-/

namespace Verif

open Re

/-! ### whitespace -/

theorem filter_splitAt (p : Char → Bool) (s : PyStr) : ((splitAt p s).filter (fun w => !w.isEmpty)).flatten = s.filter (fun c => !p c) := by
  have key : ∀ l : List PyStr, (l.filter (fun w => !w.isEmpty)).flatten = l.flatten := by
    intro l
    induction l with
    | nil => rfl
    | cons a l ih => cases a <;> simp [ih]
  rw [key]
  induction s with
  | nil => rfl
  | cons c s ih =>
    rw [splitAt]
    by_cases hc : p c = true
    · simp [hc, ih]
    · simp only [hc]
      cases hs : splitAt p s with
      | nil =>
        rw [hs] at ih
        simp [← ih, hc]
      | cons w ws =>
        rw [hs] at ih
        simp [hc, ← ih]

theorem filter_dropWhile (p : Char → Bool) (s : PyStr) : (s.dropWhile p).filter (fun c => !p c) = s.filter (fun c => !p c) := by
  induction s with
  | nil => rfl
  | cons c s ih => by_cases hc : p c = true <;> simp [List.dropWhile, hc, ih]

theorem filter_strip (p : Char → Bool) (s : PyStr) : (stripBy p s).filter (fun c => !p c) = s.filter (fun c => !p c) := by
  unfold stripBy rstripBy
  rw [List.filter_reverse, filter_dropWhile, ← List.filter_reverse, List.reverse_reverse, filter_dropWhile]

theorem clearWhitespace_eq (s : PyStr) : clearWhitespace s = s.filter (fun c => !isSpace c) := by
  unfold clearWhitespace splitSpace
  rw [join_nil, filter_splitAt, filter_strip]

theorem clear_append (a b : PyStr) : clearWhitespace (a ++ b) = clearWhitespace a ++ clearWhitespace b := by
  simp only [clearWhitespace_eq, List.filter_append]

theorem clear_of_no_space {s : PyStr} (h : ∀ c ∈ s, isSpace c = false) : clearWhitespace s = s := by
  rw [clearWhitespace_eq, List.filter_eq_self]
  intro c hc
  rw [h c hc]
  rfl

/-- All whitespace characters. -/
def spaces : List Char := [9, 10, 11, 12, 13, 28, 29, 30, 31, 32, 0x85, 0xa0, 0x1680, 0x2000, 0x2001, 0x2002, 0x2003, 0x2004, 0x2005, 0x2006, 0x2007, 0x2008,
  0x2009, 0x200a, 0x2028, 0x2029, 0x202f, 0x205f, 0x3000].map Char.ofNat

theorem isSpace_mem {c : Char} (h : isSpace c = true) : c ∈ spaces := by
  unfold isSpace at h
  simp only [Bool.or_eq_true, Bool.and_eq_true, decide_eq_true_eq] at h
  have hn : c.toNat ∈ [9, 10, 11, 12, 13, 28, 29, 30, 31, 32, 0x85, 0xa0, 0x1680, 0x2000, 0x2001, 0x2002, 0x2003, 0x2004, 0x2005, 0x2006, 0x2007, 0x2008,
      0x2009, 0x200a, 0x2028, 0x2029, 0x202f, 0x205f, 0x3000] := by
    simp only [List.mem_cons, List.not_mem_nil, or_false]
    omega
  have := List.mem_map_of_mem (f := Char.ofNat) hn
  rw [Char.ofNat_toNat] at this
  exact this

/-- Characters that specifiers treat specially. -/
def specials : List Char := spaces ++ [',', '|', '(']

theorem text_specials {p : Spelling} (hp : p.WF) {c : Char} (h : c ∈ p.text) : c ∉ specials := by
  have ha := Re.allows_of_mem _ _ _ ((version_iff _ _).2 ⟨p, hp, rfl, rfl⟩) c h
  intro hc
  have : ∀ c ∈ specials, allows Pattern.version c = false := by decide +kernel
  rw [this c hc] at ha
  cases ha

/-- No special characters. -/
def Plain (s : PyStr) : Prop := ∀ c ∈ s, c ∉ specials

theorem Plain.append {a b : PyStr} (ha : Plain a) (hb : Plain b) : Plain (a ++ b) := by
  intro c hc
  rcases List.mem_append.1 hc with h | h
  · exact ha c h
  · exact hb c h

theorem Plain.clear {s : PyStr} (h : Plain s) : clearWhitespace s = s := by
  apply clear_of_no_space
  intro c hc
  cases hs : isSpace c with
  | false => rfl
  | true => exact absurd (List.mem_append_left _ (isSpace_mem hs)) (h c hc)

theorem Plain.no {s : PyStr} (h : Plain s) {x : Char} (hx : x ∈ specials) : ∀ c ∈ s, decide (c = x) = false := by
  intro c hc
  rw [decide_eq_false_iff_not]
  rintro rfl
  exact h c hc hx

/-! ### pipes -/

theorem replacePipes_append {a b : PyStr} (h : ∀ c ∈ a, c ≠ '|') : replacePipes (a ++ b) = a ++ replacePipes b := by
  induction a with
  | nil => rfl
  | cons c a ih =>
    have hc := h c (by simp)
    rw [List.cons_append, replacePipes, ih (fun x hx => h x (by simp [hx]))]
    · rfl
    · rintro s' rfl
      exact absurd rfl hc

theorem splitPipes_pipes : ∀ (l : List (Bool × PyStr)) (a : PyStr), (∀ c ∈ a, c ≠ '|') → (∀ x ∈ l, ∀ c ∈ x.2, c ≠ '|') →
    (∀ x ∈ l.dropLast, x.2 ≠ []) → splitPipes (pipes a l) = a :: l.map (·.2) := by
  intro l
  induction l with
  | nil =>
    intro a ha _ _
    unfold splitPipes pipes
    have := replacePipes_append (b := []) ha
    rw [List.append_nil] at this
    rw [this, replacePipes, List.append_nil, splitAt_single]
    · rfl
    · intro c hc
      exact decide_eq_false (ha c hc)
  | cons x l ih =>
    obtain ⟨d, b⟩ := x
    intro a ha hl hne
    have ih := ih b (hl (d, b) (by simp)) (fun y hy => hl y (by simp [hy])) (by
      intro y hy
      cases l with
      | nil => cases hy
      | cons z l => exact hne y (by rw [List.dropLast_cons_cons]; exact List.mem_cons_of_mem _ hy))
    have hnp : ∀ s, pipes b l ≠ '|' :: s := by
      intro s e
      cases b with
      | cons y b =>
        have : y = '|' := by
          cases l with
          | nil =>
            rw [pipes] at e
            cases e
            rfl
          | cons z l =>
            rw [pipes] at e
            cases e
            rfl
        exact hl _ List.mem_cons_self y (by simp) this
      | nil =>
        cases l with
        | nil =>
          rw [pipes] at e
          cases e
        | cons z l => exact hne (d, []) (by simp) rfl
    have hr : replacePipes ((if d then ['|', '|'] else ['|']) ++ pipes b l) = '|' :: replacePipes (pipes b l) := by
      cases d with
      | true => rfl
      | false =>
        show replacePipes ('|' :: pipes b l) = _
        rw [replacePipes]
        intro s' _ e
        exact hnp s' e
    unfold splitPipes at ih ⊢
    rw [pipes, List.append_assoc, replacePipes_append ha, hr, splitAt_append _ _ _ _ (fun c hc => decide_eq_false (ha c hc)) (by decide), ih]
    rfl

theorem clear_pipes : ∀ (l : List (Bool × PyStr)) (a : PyStr), clearWhitespace (pipes a l) = pipes (clearWhitespace a) (l.map (fun x => (x.1, clearWhitespace x.2))) := by
  intro l
  induction l with
  | nil => intro a; rfl
  | cons x l ih =>
    intro a
    rw [pipes, clear_append, clear_append, ih, List.map_cons, pipes]
    congr 2
    cases x.1 <;> decide

/-! ### single specifiers -/

theorem parse_plain {s : PyStr} (h : Plain s) : Specifier.parse s = Specifier.parseSingle s := by
  unfold Specifier.parse Specifier.parseAny
  have h1 : splitPipes s = [s] := splitPipes_pipes [] s (fun c hc e => h c hc (e ▸ by decide)) (by simp) (by simp)
  have h2 : splitComma s = [s] := splitAt_single _ _ (h.no (by decide))
  rw [h.clear, h1]
  simp only [mapAll, Specifier.parseAll, h2]
  cases Specifier.parseSingle s <;> rfl

end Verif
