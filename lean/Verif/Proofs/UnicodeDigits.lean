import Verif.Spec.IntText
import Verif.Proofs.LimitSpecifiers
/-!
# Parsing with the digits of Unicode
-/

namespace Verif
open Re

/-! ### the table -/

theorem ascii_digit_char {c : Char} (h : IsDigit c) : c.toNat < 128 ∧ isDecimal c = true := by
  refine ⟨?_, (isDecimal_iff c).2 h⟩
  have : ∀ c ∈ "0123456789".toList, c.toNat < 128 := by decide
  exact this c (digit_mem c h)

namespace DigitTable
variable (T : DigitTable)

theorem of_digit {c : Char} (h : IsDigit c) : T.decimal c = some (c.toNat - 48) ∧ T.digit c = true := by
  obtain ⟨h1, h2⟩ := ascii_digit_char h
  rw [T.ascii c h1, T.ascii_digit c h1, if_pos h2]
  exact ⟨rfl, h2⟩

theorem not_decimal {c : Char} (h : c.toNat < 128) (h' : isDecimal c = false) : T.decimal c = none := by
  rw [T.ascii c h, h']
  rfl

theorem not_blank {c : Char} (h : T.decimal c ≠ none) : intSpace c = false := by
  rw [Bool.eq_false_iff]
  intro hs
  unfold intSpace at hs
  rw [Bool.and_eq_true] at hs
  exact h (T.decimal_digit c (T.space c hs.1))

theorem ne_char {c : Char} (h : T.decimal c ≠ none) {x : Char} (hx : x.toNat < 128) (hx' : isDecimal x = false) : c ≠ x := by
  rintro rfl
  exact h (T.not_decimal hx hx')

theorem not_digit_letter {c : Char} (h : IsLetter c) (h' : ¬ IsDigit c) : T.digit c = false := by
  by_cases ha : c.toNat < 128
  · rw [T.ascii_digit c ha, Bool.eq_false_iff]
    intro hd
    exact h' ((isDecimal_iff c).1 hd)
  · apply T.letter
    unfold IsLetter foldCase at h
    split at h
    · rename_i hc
      exact absurd (show c.toNat < 128 from Nat.lt_of_le_of_lt hc.2 (by decide)) ha
    · split at h
      · rename_i hc
        rcases hc with rfl | rfl <;> simp
      · split at h
        · rename_i hc
          subst hc
          simp
        · split at h
          · rename_i hc
            subst hc
            simp
          · exact absurd (show c.toNat < 128 from Nat.lt_of_le_of_lt h.2 (by decide)) ha

theorem number_eq (d : PyStr) : (T.number d : Int) = d.foldl (fun n c => 10 * n + ((T.decimal c).getD 0 : Int)) 0 := by
  have key : ∀ (l : PyStr) (k : Nat), ((Nat.ofDigits 10 (l.reverse.map (fun c => (T.decimal c).getD 0)) + 10 ^ l.length * k : Nat) : Int) =
      l.foldl (fun n c => 10 * n + ((T.decimal c).getD 0 : Int)) (k : Int) := by
    intro l
    induction l with
    | nil => intro k; simp
    | cons c l ih =>
      intro k
      have := ih (10 * k + (T.decimal c).getD 0)
      rw [List.foldl_cons]
      rw [show (10 * (k : Int) + ((T.decimal c).getD 0 : Int)) = ((10 * k + (T.decimal c).getD 0 : Nat) : Int) by simp]
      rw [← this, List.reverse_cons, List.map_append, Nat.ofDigits_append]
      simp only [List.map_cons, List.map_nil, Nat.ofDigits_singleton, List.length_map, List.length_reverse, List.length_cons]
      congr 1
      ring
  have := key d 0
  simpa [number] using this

theorem number_digits {d : PyStr} (hd : ∀ c ∈ d, IsDigit c) : (T.number d : Int) = Verif.number d := by
  rw [number_eq, ← fold_number d hd]
  have : ∀ (l : PyStr) (k : Int), (∀ c ∈ l, IsDigit c) → l.foldl (fun n c => 10 * n + ((T.decimal c).getD 0 : Int)) k =
      l.foldl (fun n c => 10 * n + ((c.toNat : Int) - 48)) k := by
    intro l
    induction l with
    | nil => intro k _; rfl
    | cons c l ih =>
      intro k hl
      have hc := hl c (by simp)
      have h48 : 48 ≤ c.toNat := hc.1
      rw [List.foldl_cons, List.foldl_cons, (T.of_digit hc).1, ih _ (fun x hx => hl x (by simp [hx]))]
      congr 1
      simp only [Option.getD_some]
      omega
  exact this d 0 hd

end DigitTable

/-! ### `int` -/

theorem intSpace_iff (c : Char) : intSpace c = true ↔ IntBlank c := by
  unfold intSpace IntBlank
  simp only [Bool.and_eq_true, Bool.not_eq_true', Bool.and_eq_false_iff, decide_eq_false_iff_not]
  refine and_congr_right fun _ => ?_
  omega

theorem mem_takeWhile_true {p : Char → Bool} {l : PyStr} {c : Char} (h : c ∈ l.takeWhile p) : p c = true :=
  List.all_eq_true.1 (List.all_takeWhile (p := p) (l := l)) c h

theorem strip_parts (p : Char → Bool) (s : PyStr) : ∃ l r, s = l ++ stripBy p s ++ r ∧ (∀ c ∈ l, p c = true) ∧ ∀ c ∈ r, p c = true := by
  refine ⟨s.takeWhile p, ((s.dropWhile p).reverse.takeWhile p).reverse, ?_, fun c hc => mem_takeWhile_true hc, fun c hc => ?_⟩
  · unfold stripBy rstripBy
    rw [List.append_assoc, ← List.reverse_append, List.takeWhile_append_dropWhile, List.reverse_reverse, List.takeWhile_append_dropWhile]
  · exact mem_takeWhile_true (List.mem_reverse.1 hc)

theorem dropWhile_all {p : Char → Bool} {l t : PyStr} (hl : ∀ c ∈ l, p c = true) (ht : ∀ c, t.head? = some c → p c = false) :
    (l ++ t).dropWhile p = t := by
  induction l with
  | nil =>
    cases t with
    | nil => rfl
    | cons c t => rw [List.nil_append, List.dropWhile_cons_of_neg (by simp [ht c rfl])]
  | cons c l ih => rw [List.cons_append, List.dropWhile_cons_of_pos (hl c (by simp)), ih (fun x hx => hl x (by simp [hx]))]

theorem strip_eq {p : Char → Bool} {l t r : PyStr} (hl : ∀ c ∈ l, p c = true) (hr : ∀ c ∈ r, p c = true) (hne : t ≠ [])
    (h1 : ∀ c, t.head? = some c → p c = false) (h2 : ∀ c, t.getLast? = some c → p c = false) : stripBy p (l ++ t ++ r) = t := by
  unfold stripBy rstripBy
  rw [List.append_assoc, dropWhile_all hl, List.reverse_append, dropWhile_all, List.reverse_reverse]
  · simpa using hr
  · simpa [List.head?_reverse] using h2
  · intro c hc
    cases t with
    | nil => exact absurd rfl hne
    | cons x t => exact h1 c (by simpa using hc)

theorem signAndDigits_parts (s : PyStr) : ∃ sign, (sign = [] ∨ sign = ['+'] ∨ sign = ['-']) ∧ s = sign ++ (signAndDigits s).2 ∧
    (signAndDigits s).1 = if sign = ['-'] then -1 else 1 := by
  unfold signAndDigits
  split
  · exact ⟨['+'], by simp, rfl, rfl⟩
  · exact ⟨['-'], by simp, rfl, rfl⟩
  · exact ⟨[], by simp, rfl, rfl⟩

theorem splitAt_under (s : PyStr) : splitAt (· = '_') s = s.splitOn '_' := by
  rw [splitAt_eq_splitOnP, List.splitOn]
  congr 1

theorem pyIntIn_ok (T : DigitTable) (s : PyStr) (n : Int) : pyIntIn T s = .ok n ↔ IntText T s n := by
  have all_iff : ∀ g : List PyStr, g.all (fun d => !d.isEmpty && d.all (fun c => (T.decimal c).isSome)) = true ↔
      ∀ d ∈ g, d ≠ [] ∧ ∀ c ∈ d, T.decimal c ≠ none := by
    intro g
    simp only [List.all_eq_true, Bool.and_eq_true, Bool.not_eq_true', List.isEmpty_eq_false_iff, ne_eq, Option.isSome_iff_ne_none]
  constructor
  · intro h
    unfold pyIntIn at h
    simp only at h
    split at h
    swap
    · cases h
    rename_i hall
    obtain ⟨l, r, e, hl, hr⟩ := strip_parts intSpace s
    obtain ⟨sign, hs, e2, e3⟩ := signAndDigits_parts (stripBy intSpace s)
    refine ⟨l, sign, splitAt (· = '_') (signAndDigits (stripBy intSpace s)).2, r, ?_, fun c hc => (intSpace_iff c).1 (hl c hc),
      fun c hc => (intSpace_iff c).1 (hr c hc), hs, ?_, (all_iff _).1 hall, ?_⟩
    · rw [splitAt_under, List.intercalate_splitOn, List.append_assoc l, ← e2]
      exact e
    · rw [splitAt_under]
      exact List.splitOnP_ne_nil _ _
    · rw [T.number_eq, ← e3]
      exact (Except.ok.inj h).symm
  · rintro ⟨l, sign, g, r, rfl, hl, hr, hs, hne, hg, rfl⟩
    obtain ⟨g0, gs, rfl⟩ := List.exists_cons_of_ne_nil hne
    set b := ['_'].intercalate (g0 :: gs) with hb
    have hsplit : splitAt (· = '_') b = g0 :: gs := by
      rw [splitAt_under, hb]
      refine List.splitOn_intercalate _ (fun d hd hx => ?_) hne
      exact T.ne_char ((hg d hd).2 _ hx) (x := '_') (by decide) (by decide) rfl
    have head : ∃ c b', b = c :: b' ∧ T.decimal c ≠ none := by
      obtain ⟨c, g', e⟩ := List.exists_cons_of_ne_nil (hg g0 (by simp)).1
      refine ⟨c, (b.tail), ?_, (hg g0 (by simp)).2 c (by simp [e])⟩
      rw [hb, e]
      cases gs <;> simp [List.intercalate]
    have last : ∀ c, b.getLast? = some c → T.decimal c ≠ none := by
      intro c hc
      have key : ∀ (gs : List PyStr) (g0 : PyStr), (∀ d ∈ g0 :: gs, d ≠ [] ∧ ∀ c ∈ d, T.decimal c ≠ none) →
          ∀ c, (['_'].intercalate (g0 :: gs)).getLast? = some c → T.decimal c ≠ none := by
        intro gs
        induction gs with
        | nil =>
          intro g0 hg c hc
          simp only [List.intercalate, List.intersperse, List.flatten_cons, List.flatten_nil, List.append_nil] at hc
          exact (hg g0 (by simp)).2 c (List.mem_of_getLast? hc)
        | cons g1 gs ih =>
          intro g0 hg c hc
          have e : ['_'].intercalate (g0 :: g1 :: gs) = g0 ++ ['_'] ++ ['_'].intercalate (g1 :: gs) := by simp [List.intercalate]
          rw [e, List.getLast?_append] at hc
          cases h1 : (['_'].intercalate (g1 :: gs)).getLast? with
          | some x =>
            rw [h1] at hc
            cases hc
            exact ih g1 (fun d hd => hg d (List.mem_cons_of_mem _ hd)) _ h1
          | none =>
            rw [List.getLast?_eq_none_iff] at h1
            have h2 := (hg g1 (by simp)).1
            exfalso
            apply h2
            cases gs with
            | nil => simpa [List.intercalate] using h1
            | cons _ _ => simp [List.intercalate] at h1
      exact key gs g0 hg c hc
    obtain ⟨c0, b', eb, hc0⟩ := head
    have hstrip : stripBy intSpace (l ++ sign ++ b ++ r) = sign ++ b := by
      rw [List.append_assoc l]
      refine strip_eq (fun c hc => (intSpace_iff c).2 (hl c hc)) (fun c hc => (intSpace_iff c).2 (hr c hc)) (by rw [eb]; simp) ?_ ?_
      · intro c hc
        rcases hs with rfl | rfl | rfl
        · rw [List.nil_append, eb] at hc
          cases hc
          exact T.not_blank hc0
        · cases hc; decide
        · cases hc; decide
      · intro c hc
        rw [List.getLast?_append] at hc
        cases h1 : b.getLast? with
        | none => rw [List.getLast?_eq_none_iff, eb] at h1; cases h1
        | some x =>
          rw [h1] at hc
          cases hc
          exact T.not_blank (last _ h1)
    have hsd : signAndDigits (sign ++ b) = ((if sign = ['-'] then -1 else 1), b) := by
      rcases hs with rfl | rfl | rfl
      · rw [List.nil_append, eb]
        unfold signAndDigits
        split
        · rename_i h; cases h; exact absurd rfl (T.ne_char hc0 (x := '+') (by decide) (by decide))
        · rename_i h; cases h; exact absurd rfl (T.ne_char hc0 (x := '-') (by decide) (by decide))
        · rfl
      · rfl
      · rfl
    unfold pyIntIn
    simp only [hstrip, hsd, hsplit]
    rw [if_pos ((all_iff _).2 hg), T.number_eq]

theorem pyIntIn_error (T : DigitTable) (s : PyStr) (e : PyErr) (h : pyIntIn T s = .error e) : e = .valueError := by
  unfold pyIntIn at h
  simp only at h
  split at h <;> cases h
  rfl

theorem pyIntIn_digits (T : DigitTable) {d : PyStr} (hd : Digits d) : pyIntIn T d = pyInt d := by
  rw [pyInt_digits hd, pyIntIn_ok]
  refine ⟨[], [], [d], [], by simp [List.intercalate], by simp, by simp, .inl rfl, by simp, ?_, ?_⟩
  · simp only [List.mem_singleton, forall_eq]
    exact ⟨hd.1, fun c hc => by rw [(T.of_digit (hd.2 c hc)).1]; simp⟩
  · simp [T.number_digits hd.2]

/-! ### segments -/

theorem pyIntIn_row (T : DigitTable) {s : PyStr} (hne : s ≠ []) (hd : ∀ c ∈ s, T.digit c = true) :
    ((∀ c ∈ s, T.decimal c ≠ none) → pyIntIn T s = .ok (T.number s : Int)) ∧
    ((∃ c ∈ s, T.decimal c = none) → pyIntIn T s = .error .valueError) := by
  have plain : ∀ x : Char, x.toNat < 128 → isDecimal x = false → x ∉ s := by
    intro x h1 h2 hx
    have := hd x hx
    rw [T.ascii_digit x h1, h2] at this
    cases this
  have blank : ∀ c ∈ s, intSpace c = false := by
    intro c hc
    rw [Bool.eq_false_iff]
    intro h
    unfold intSpace at h
    rw [Bool.and_eq_true] at h
    exact absurd (hd c hc) (by rw [T.space c h.1]; simp)
  have h1 : stripBy intSpace s = s := by
    have := strip_eq (p := intSpace) (l := []) (r := []) (t := s) (by simp) (by simp) hne
      (fun c hc => blank c (List.mem_of_mem_head? hc)) (fun c hc => blank c (List.mem_of_getLast? hc))
    simpa using this
  have h2 : signAndDigits s = (1, s) := by
    unfold signAndDigits
    split
    · exact absurd (List.mem_cons_self) (plain '+' (by decide) (by decide))
    · exact absurd (List.mem_cons_self) (plain '-' (by decide) (by decide))
    · rfl
  have h3 : splitAt (· = '_') s = [s] := by
    apply splitAt_single
    intro x hx
    rw [decide_eq_false_iff_not]
    rintro rfl
    exact plain '_' (by decide) (by decide) hx
  unfold pyIntIn
  simp only [h1, h2, h3]
  constructor
  · intro h
    rw [if_pos, T.number_eq]
    · simp
    · simp [hne, Option.isSome_iff_ne_none]
      exact h
  · rintro ⟨c, hc, hn⟩
    rw [if_neg]
    intro h
    simp only [List.all_cons, List.all_nil, Bool.and_true, Bool.and_eq_true, List.all_eq_true] at h
    have := h.2 c hc
    rw [hn] at this
    cases this

theorem part_ok (T : DigitTable) (s : PyStr) (p : LocalPart) : LocalPart.parseIn T s = .ok p ↔ LocalText T s p := by
  have dec : ∀ c, T.decimal c ≠ none → T.digit c = true := by
    intro c h
    cases hd : T.digit c with
    | true => rfl
    | false => exact absurd (T.decimal_digit c hd) h
  unfold LocalPart.parseIn LocalText
  by_cases h : s ≠ [] ∧ ∀ c ∈ s, T.digit c = true
  · rw [if_pos (by simpa using h)]
    have no : ¬ (s = [] ∨ ∃ c ∈ s, T.digit c = false) := by
      rintro (e | ⟨c, hc, e⟩)
      · exact h.1 e
      · rw [h.2 c hc] at e
        cases e
    by_cases ha : ∀ c ∈ s, T.decimal c ≠ none
    · rw [(pyIntIn_row T h.1 h.2).1 ha]
      constructor
      · intro e
        exact .inl ⟨h.1, ha, (Except.ok.inj e).symm⟩
      · rintro (⟨-, -, rfl⟩ | ⟨h', -⟩)
        · rfl
        · exact absurd h' no
    · obtain ⟨c, hc, hn⟩ : ∃ c ∈ s, T.decimal c = none := by simpa using ha
      rw [(pyIntIn_row T h.1 h.2).2 ⟨c, hc, hn⟩]
      constructor
      · intro e
        cases e
      · rintro (⟨-, h', -⟩ | ⟨h', -⟩)
        · exact absurd hn (h' c hc)
        · exact absurd h' no
  · rw [if_neg (by simpa using h)]
    have yes : s = [] ∨ ∃ c ∈ s, T.digit c = false := by
      by_cases hs : s = []
      · exact .inl hs
      · refine .inr ?_
        by_contra hn
        refine h ⟨hs, fun c hc => ?_⟩
        by_contra h'
        exact hn ⟨c, hc, by simpa using h'⟩
    constructor
    · intro e
      exact .inr ⟨yes, (Except.ok.inj e).symm⟩
    · rintro (⟨h1, h2, -⟩ | ⟨-, rfl⟩)
      · exact absurd ⟨h1, fun c hc => dec c (h2 c hc)⟩ h
      · rfl

theorem part_error (T : DigitTable) (s : PyStr) (e : PyErr) : LocalPart.parseIn T s = .error e ↔
    e = .valueError ∧ s ≠ [] ∧ (∀ c ∈ s, T.digit c = true) ∧ ∃ c ∈ s, T.decimal c = none := by
  unfold LocalPart.parseIn
  by_cases h : s ≠ [] ∧ ∀ c ∈ s, T.digit c = true
  · rw [if_pos (by simpa using h)]
    by_cases ha : ∃ c ∈ s, T.decimal c = none
    · rw [(pyIntIn_row T h.1 h.2).2 ha]
      exact ⟨fun e => ⟨(Except.error.inj e).symm, h.1, h.2, ha⟩, fun ⟨e, _⟩ => e ▸ rfl⟩
    · rw [(pyIntIn_row T h.1 h.2).1 (by simpa using ha)]
      exact ⟨fun e => (by cases e), fun ⟨_, _, _, h'⟩ => absurd h' ha⟩
  · rw [if_neg (by simpa using h)]
    exact ⟨fun e => (by cases e), fun ⟨_, h1, h2, _⟩ => absurd ⟨h1, h2⟩ h⟩

/-- On letters and digits nothing changes. -/
theorem part_alnum (T : DigitTable) {s : PyStr} (hs : AlphaNum s) : LocalPart.parseIn T s = LocalPart.parse s := by
  rw [parse_part, part_ok]
  unfold LocalText partMeaning
  by_cases h : Digits s
  · rw [if_pos h]
    exact .inl ⟨h.1, fun c hc => by rw [(T.of_digit (h.2 c hc)).1]; simp, by rw [← T.number_digits h.2]⟩
  · rw [if_neg h]
    refine .inr ⟨.inr ?_, rfl⟩
    by_contra hn
    refine h ⟨hs.1, fun c hc => ?_⟩
    by_contra hd
    exact hn ⟨c, hc, T.not_digit_letter ((hs.2 c hc).resolve_right hd) hd⟩

theorem splitSeparators_eq (s : PyStr) : splitSeparators s = s.splitOnP (fun c => decide (IsSep c)) := by
  rw [← splitAt_eq_splitOnP]
  unfold splitSeparators
  have key : ∀ s : PyStr, splitAt (· = '.') (s.map (fun c => if c = '-' ∨ c = '_' then '.' else c)) = splitAt (fun c => decide (IsSep c)) s := by
    intro s
    induction s with
    | nil => rfl
    | cons c s ih =>
      rw [List.map_cons, splitAt, splitAt, ih]
      by_cases hc : c = '-' ∨ c = '_'
      · have : IsSep c := .inr hc
        simp [hc, this]
      · have : IsSep c ↔ c = '.' := ⟨fun h => h.resolve_right hc, .inl⟩
        simp [hc, this]
  exact key s

end Verif
