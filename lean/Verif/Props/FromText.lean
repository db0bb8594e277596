import Verif.Proofs.Pep440
import Verif.Props.SetStrings
import Verif.Props.Order
/-!
# C122: from text to answer, for requirements on release numbers

Everything here is about strings and lists of natural numbers: no definition of the model occurs in what the strings mean.
-/

namespace Verif
open scoped Verif

/-! ## The strings -/

/-- Release numbers as text: decimal numerals with dots between them. -/
def relText (l : List Nat) : PyStr := ['.'].intercalate (l.map (fun n => (toString n).toList))

/-- The signs a requirement can start with; the last three go with `.*` at the end. -/
inductive Sign
  | caret | tilde | tildeEqual | doubleEqual | equal | notEqual | less | lessOrEqual | greater | greaterOrEqual
  | under | underSingle | notUnder
  deriving DecidableEq, Repr

def Sign.text : Sign → String
  | caret => "^" | tilde => "~" | tildeEqual => "~=" | doubleEqual => "==" | equal => "=" | notEqual => "!=" | less => "<"
  | lessOrEqual => "<=" | greater => ">" | greaterOrEqual => ">=" | under => "==" | underSingle => "=" | notUnder => "!="

def Sign.ending : Sign → String
  | under | underSingle | notUnder => ".*"
  | _ => ""

/-- A requirement on release numbers. -/
structure Need where
  sign : Sign
  parts : List Nat

def Need.text (n : Need) : PyStr := n.sign.text.toList ++ relText n.parts ++ n.sign.ending.toList

/-- The requirements the documentation allows: at least one number, two for `~=`. -/
def Need.WellFormed (n : Need) : Prop := n.parts ≠ [] ∧ (n.sign = .tildeEqual → 2 ≤ n.parts.length)

/-! ## What they mean -/

/-- The number at a place; zero after the end. -/
def numAt (l : List Nat) (i : Nat) : Nat := l.getD i 0

/-- The same numbers at the first `n` places. -/
def AgreeTo (n : Nat) (x y : List Nat) : Prop := ∀ i < n, numAt x i = numAt y i

instance (n : Nat) (x y : List Nat) : Decidable (AgreeTo n x y) := inferInstanceAs (Decidable (∀ i < n, _))

/-- At the first place where the numbers differ, that of `x` is smaller. -/
def Smaller (x y : List Nat) : Prop := ∃ i, AgreeTo i x y ∧ numAt x i < numAt y i

/-- `x` satisfies the requirement. -/
def Need.Holds (n : Need) (x : List Nat) : Prop :=
  match n.sign with
  | .caret => ¬ Smaller x n.parts ∧
      ∃ i < 3, (∀ j < i, numAt n.parts j = 0) ∧ (numAt n.parts i ≠ 0 ∨ i + 1 = min 3 n.parts.length) ∧ AgreeTo (i + 1) x n.parts
  | .tilde => ¬ Smaller x n.parts ∧ AgreeTo (min 2 n.parts.length) x n.parts
  | .tildeEqual => ¬ Smaller x n.parts ∧ AgreeTo (n.parts.length - 1) x n.parts
  | .doubleEqual | .equal => ∀ i, numAt x i = numAt n.parts i
  | .notEqual => ∃ i, numAt x i ≠ numAt n.parts i
  | .less => Smaller x n.parts
  | .lessOrEqual => ¬ Smaller n.parts x
  | .greater => Smaller n.parts x
  | .greaterOrEqual => ¬ Smaller x n.parts
  | .under | .underSingle => AgreeTo n.parts.length x n.parts
  | .notUnder => ¬ AgreeTo n.parts.length x n.parts

/-! ## Versions with these numbers -/

namespace FromText

def ver (l : List Nat) : Version := exVersion (l.map Int.ofNat)

theorem numeral_eq (n : Nat) : (toString n).toList = natStr n := by
  have h : (toString n).toList = Nat.toDigits 10 n := by
    show (String.ofList (Nat.toDigits 10 n)).toList = _
    rw [String.toList_ofList]
  rw [h]
  induction n using Nat.strongRecOn with
  | ind n ih =>
    by_cases hn : n < 10
    · rw [Nat.toDigits_of_lt_base hn, natStr_small hn]
    · rw [Nat.toDigits_of_base_le (by omega) (by omega), natStr_step (by omega), ih (n / 10) (by omega) (by
        show (String.ofList (Nat.toDigits 10 (n / 10))).toList = _
        rw [String.toList_ofList])]

theorem ver_text (l : List Nat) : (ver l).release.toStr = relText l := by
  unfold Release.toStr relText ver exVersion join
  simp only [List.map_map]
  congr 1
  refine List.map_congr_left fun n _ => ?_
  exact (numeral_eq n).symm

theorem ver_short (l : List Nat) : (ver l).toShortStr = relText l := by
  rw [← ver_text]
  simp [Version.toShortStr, ver, exVersion, Version.part, Version.epochPart, Epoch.truthy, join, List.intercalate]

theorem ver_valid {l : List Nat} (h : l ≠ []) : (ver l).Valid :=
  ⟨by simpa [ver, exVersion] using h, by simp [ver, exVersion], by simp [ver, exVersion], by simp [ver, exVersion], by simp [ver, exVersion]⟩

theorem ver_nonNeg (l : List Nat) : (ver l).release.NonNeg := by
  intro p hp
  simp only [ver, exVersion, List.mem_map] at hp
  obtain ⟨n, -, rfl⟩ := hp
  exact Int.natCast_nonneg n

theorem ver_canonical {l : List Nat} (h : l ≠ []) : (ver l).Canonical :=
  ⟨ver_valid h, by simp [ver, exVersion], ver_nonNeg l, by simp [ver, exVersion], by simp [ver, exVersion], by simp [ver, exVersion],
    by simp [ver, exVersion]⟩

theorem ver_part (l : List Nat) (i : Nat) : (ver l).release.part i = (numAt l i : Int) := by
  simp only [ver, exVersion, Release.part, numAt, List.getD_eq_getElem?_getD, List.getElem?_map]
  cases l[i]? <;> rfl

theorem ver_below (x y : List Nat) : (ver x).release.Below (ver y).release ↔ Smaller x y := by
  simp only [Release.Below, Smaller, AgreeTo, ver_part, Int.natCast_inj, Int.ofNat_lt]

theorem ver_lt {x y : List Nat} (hx : x ≠ []) (hy : y ≠ []) : ver x <ₚ ver y ↔ Smaller x y := by
  rw [C60_order _ _ (ver_valid hx) (ver_valid hy) (ver_nonNeg x) (ver_nonNeg y), ← ver_below]
  simp [Version.Before, ver, exVersion, Version.preRank, Version.postRank, Version.devRank, Rank.Below, localBefore]

theorem ver_le {x y : List Nat} (hx : x ≠ []) (hy : y ≠ []) : ver x ≤ₚ ver y ↔ ¬ Smaller y x := by
  rw [← ver_lt hy hx, vle_iff, vlt_iff, not_lt]

theorem ver_gt {x y : List Nat} (hx : x ≠ []) (hy : y ≠ []) : ver x >ₚ ver y ↔ Smaller y x := by
  rw [← ver_lt hy hx, vgt_iff, vlt_iff]

theorem ver_ge {x y : List Nat} (hx : x ≠ []) (hy : y ≠ []) : ver x ≥ₚ ver y ↔ ¬ Smaller x y := by
  rw [← ver_lt hx hy, vge_iff, vlt_iff, not_lt]

theorem ver_eq {x y : List Nat} (hx : x ≠ []) (hy : y ≠ []) : ver x ==ₚ ver y ↔ ∀ i, numAt x i = numAt y i := by
  rw [C02_eq_iff _ _ (ver_valid hx) (ver_valid hy)]
  simp only [ver_part, Int.natCast_inj]
  simp [ver, exVersion]

theorem ver_prefix (n : Nat) (x y : List Nat) : (ver x).SamePrefix n (ver y) ↔ AgreeTo n x y := by
  simp only [Version.SamePrefix, AgreeTo, ver_part, Int.natCast_inj]
  exact and_iff_right rfl

theorem ver_final (x : List Nat) : ¬ (ver x).LeadsToFinal := by simp [Version.LeadsToFinal, ver, exVersion]

theorem ver_stable (x : List Nat) : (ver x).pre = none ∧ (ver x).dev = none := ⟨rfl, rfl⟩

theorem ver_precision (x : List Nat) : (ver x).release.precision = x.length := by simp [ver, exVersion, Release.precision]

theorem num_zero (a : List Nat) (i : Nat) : numAt (a ++ [0]) i = numAt a i := by
  simp only [numAt, List.getD_eq_getElem?_getD, List.getElem?_append]
  split
  · rfl
  · rename_i h
    rw [List.getElem?_eq_none (l := a) (by omega)]
    cases i - a.length <;> simp

theorem relText_snoc {a : List Nat} (h : a ≠ []) : relText (a ++ [0]) = relText a ++ ".".toList ++ "0".toList := by
  induction a with
  | nil => exact absurd rfl h
  | cons n a ih =>
    cases a with
    | nil => simp [relText, List.intercalate_cons_cons]
    | cons m a =>
      have := ih (by simp)
      simp only [relText, List.cons_append, List.map_cons, List.intercalate_cons_cons] at this ⊢
      simp only [this, List.append_assoc]

/-! ## Operators with these versions -/

def op : Sign → OpType
  | .caret => .caret | .tilde => .tilde | .tildeEqual => .tildeEqual | .doubleEqual => .doubleEqual | .equal => .equal
  | .notEqual => .notEqual | .less => .less | .lessOrEqual => .lessOrEqual | .greater => .greater
  | .greaterOrEqual => .greaterOrEqual | .under => .wildcardDoubleEqual | .underSingle => .wildcardEqual
  | .notUnder => .wildcardNotEqual

def operator (n : Need) : Operator := if (op n.sign).isWildcard then ⟨op n.sign, ver (n.parts ++ [0])⟩ else ⟨op n.sign, ver n.parts⟩

theorem op_text (s : Sign) : (op s).string = s.text.toList := by cases s <;> decide +kernel

theorem plain_ending {s : Sign} (h : (op s).isWildcard = false) : s.ending.toList = [] := by
  cases s <;> first | rfl | (exact absurd h (by decide))

theorem wild_ending {s : Sign} (h : (op s).isWildcard = true) : s.ending.toList = ".*".toList := by
  cases s <;> first | rfl | (exact absurd h (by decide))

theorem need_parse (n : Need) (h : n.WellFormed) : Specifier.parse n.text = .ok (.one (operator n)) := by
  obtain ⟨s, a⟩ := n
  obtain ⟨h1, h2⟩ := h
  simp only at h1 h2
  cases hw : (op s).isWildcard with
  | false =>
    have e : (Specifier.one (operator ⟨s, a⟩)).toShortStr = Need.text ⟨s, a⟩ := by
      simp [Specifier.toShortStr, operator, Operator.toShortStr, hw, ver_short, op_text, Need.text, plain_ending hw, join,
        List.intercalate]
    rw [← e]
    have ho : operator ⟨s, a⟩ = ⟨op s, ver a⟩ := by simp [operator, hw]
    rw [ho]
    refine C44_short _ ?_ (ver_canonical h1) hw (.inl rfl)
    unfold Operator.create
    rw [if_neg]
    rintro ⟨ht, hl⟩
    have hs : s = .tildeEqual := by cases s <;> first | rfl | (cases ht)
    have := h2 hs
    simp only [Version.lastIndex, Release.lastIndex, ver_precision] at hl
    omega
  | true =>
    have e : (Specifier.one (operator ⟨s, a⟩)).toShortStr = Need.text ⟨s, a⟩ := by
      have hr : rstripBy isDecimal (relText a ++ ['.'] ++ ['0']) = relText a ++ ['.'] :=
        rstrip_digits (by simp [NoDigitEnd]; decide) (by decide)
      simp [Specifier.toShortStr, operator, Operator.toShortStr, hw, ver_short, op_text, Need.text, wild_ending hw, join,
        List.intercalate, relText_snoc h1, wildcardString] at hr ⊢
      simp [hr]
    have ho : operator ⟨s, a⟩ = ⟨op s, ver (a ++ [0])⟩ := by simp [operator, hw]
    have hz : (ver (a ++ [0])).zeroLast = ver (a ++ [0]) := by
      simp [Version.zeroLast, ver, exVersion]
    rw [← e, ho, C44_wildcard_short _ (ver_canonical (by simp)) hw rfl, hz]

theorem need_accepts (n : Need) (h : n.WellFormed) (x : List Nat) (hx : x ≠ []) :
    ∃ b, (operator n).accepts (ver x) = .ok b ∧ (b = true ↔ n.Holds x) := by
  obtain ⟨s, a⟩ := n
  obtain ⟨h1, h2⟩ := h
  simp only at h1 h2
  have ha := ver_valid h1
  have hv := ver_valid hx
  have hpos : 0 < a.length := List.length_pos_of_ne_nil h1
  have under : ∃ b, (ver x).matchesWildcardEqual (ver (a ++ [0])) = .ok b ∧ (b = true ↔ AgreeTo a.length x a) := by
    obtain ⟨b, hb, hi⟩ := C18_wildcard (ver (a ++ [0])) (ver x) (ver_valid (by simp)) (ver_nonNeg _)
      (by rw [ver_precision]; simp; omega) ⟨rfl, rfl, rfl, rfl⟩
      (by rw [ver_part, ver_precision, num_zero]; simp [numAt]) hv (ver_nonNeg x) (ver_final x)
    refine ⟨b, hb, hi.trans ?_⟩
    rw [ver_precision, ver_prefix]
    simp only [AgreeTo, num_zero, List.length_append, List.length_singleton, Nat.add_sub_cancel]
  cases s with
  | caret =>
    obtain ⟨i, hi⟩ : ∃ i, CaretIndex (ver a).release i := (C13_index _ ha.release).exists
    obtain ⟨b, hb, hc⟩ := C13_caret_final _ _ ha (ver_nonNeg a) (ver_stable a) hv (ver_nonNeg x) (ver_final x) i hi
    refine ⟨b, hb, hc.trans ?_⟩
    rw [ver_le h1 hx, ver_prefix]
    simp only [Need.Holds]
    have hi' := hi
    simp only [CaretIndex, ver_part, ver_precision] at hi
    refine and_congr_right fun _ => ⟨fun h => ⟨i, hi.1, by simpa using hi.2.1, by simpa using hi.2.2, h⟩, ?_⟩
    rintro ⟨j, j1, j2, j3, j4⟩
    have : j = i := caretIndex_unique (r := (ver a).release) (by simpa only [CaretIndex, ver_part, ver_precision, Int.natCast_eq_zero, ne_eq] using ⟨j1, j2, j3⟩) hi'
    rw [← this]; exact j4
  | tilde =>
    obtain ⟨b, hb, hc⟩ := C18_tilde_final _ _ ha (ver_nonNeg a) (ver_stable a) hv (ver_nonNeg x) (ver_final x)
    refine ⟨b, hb, hc.trans ?_⟩
    rw [ver_le h1 hx, ver_prefix, ver_precision]; rfl
  | tildeEqual =>
    obtain ⟨b, hb, hc⟩ := C17_tilde_equal_final _ _ ha (ver_nonNeg a) (by rw [ver_precision]; exact h2 rfl) hv (ver_nonNeg x) (ver_final x)
    refine ⟨b, hb, hc.trans ?_⟩
    rw [ver_le h1 hx, ver_prefix, ver_precision]; rfl
  | doubleEqual => exact ⟨_, rfl, ver_eq hx h1⟩
  | equal => exact ⟨_, rfl, ver_eq hx h1⟩
  | notEqual =>
    refine ⟨_, rfl, ?_⟩
    have := ver_eq hx h1
    simp only [operator, Need.Holds]
    rw [← not_forall, ← this]
    show (!PyCmp.eq (ver x) (ver a)) = true ↔ _
    simp
  | less => exact ⟨_, rfl, ver_lt hx h1⟩
  | lessOrEqual => exact ⟨_, rfl, ver_le hx h1⟩
  | greater => exact ⟨_, rfl, ver_gt hx h1⟩
  | greaterOrEqual => exact ⟨_, rfl, ver_ge hx h1⟩
  | under => exact under
  | underSingle => exact under
  | notUnder =>
    obtain ⟨b, hb, hc⟩ := under
    refine ⟨!b, ?_, ?_⟩
    · show (ver x).matchesWildcardNotEqual (ver (a ++ [0])) = _
      simp [Version.matchesWildcardNotEqual, hb, bind, Except.bind]
    · simp only [Need.Holds, ← hc]; simp

theorem numeral_digits (n : Nat) : ∀ c ∈ (toString n).toList, IsDigit c := numeral_eq n ▸ (natStr_digits n).2

theorem mem_intercalate {c : Char} {sep : PyStr} {l : List PyStr} (h : c ∈ sep.intercalate l) : c ∈ sep ∨ ∃ s ∈ l, c ∈ s := by
  induction l with
  | nil => simp [List.intercalate] at h
  | cons s l ih =>
    cases l with
    | nil => exact .inr ⟨s, by simp, by simpa [List.intercalate] using h⟩
    | cons t l =>
      rw [List.intercalate_cons_cons, List.mem_append, List.mem_append] at h
      rcases h with (h | h) | h
      · exact .inr ⟨s, by simp, h⟩
      · exact .inl h
      · rcases ih h with h | ⟨u, hu, h⟩
        · exact .inl h
        · exact .inr ⟨u, List.mem_cons_of_mem _ hu, h⟩

theorem pipe_relText (a : List Nat) : '|' ∉ relText a := by
  intro h
  rcases mem_intercalate h with h | ⟨s, hs, h⟩
  · exact absurd h (by decide)
  · obtain ⟨n, -, rfl⟩ := List.mem_map.1 hs
    exact absurd (numeral_digits n _ h) (by decide)

theorem pipe_text (n : Need) : '|' ∉ n.text := by
  intro h
  rcases List.mem_append.1 h with h | h
  · rcases List.mem_append.1 h with h | h
    · revert h; cases n.sign <;> decide
    · exact pipe_relText _ h
  · revert h; cases n.sign <;> decide

end FromText

open FromText

/-! ## C122 -/

/-- Requirements all of which are to hold, with commas between them. -/
def allText (l : List Need) : PyStr := ",".toList.intercalate (l.map Need.text)

/-- Such requirements, one of which is to hold, with bars between them. -/
def anyText (f : List (List Need)) : PyStr := "||".toList.intercalate (f.map allText)

/-- C122. Release numbers are read as versions that are ordered by the numbers. -/
theorem C122_order (x y : List Nat) (hx : x ≠ []) (hy : y ≠ []) :
    ∃ v w, Version.parse (relText x) = .ok v ∧ Version.parse (relText y) = .ok w ∧ (v <ₚ w ↔ Smaller x y) ∧
      (v ==ₚ w ↔ ∀ i, numAt x i = numAt y i) := by
  refine ⟨ver x, ver y, ?_, ?_, ver_lt hx hy, ver_eq hx hy⟩
  · rw [← ver_short]; exact C38_short_round_trip _ (ver_canonical hx)
  · rw [← ver_short]; exact C38_short_round_trip _ (ver_canonical hy)

example : relText [1, 10, 0] = "1.10.0".toList ∧ Smaller [1, 9, 7] [1, 10] :=
  ⟨by decide +kernel, 1, by decide, by decide⟩

/-- C122. A requirement is read as a specifier that accepts the version read from release numbers exactly if the numbers
satisfy the requirement. -/
theorem C122_single (n : Need) (hn : n.WellFormed) (x : List Nat) (hx : x ≠ []) :
    ∃ s v b, Specifier.parse n.text = .ok s ∧ Version.parse (relText x) = .ok v ∧ s.accepts v = .ok b ∧ (b = true ↔ n.Holds x) := by
  obtain ⟨b, h1, h2⟩ := need_accepts n hn x hx
  refine ⟨_, ver x, b, need_parse n hn, ?_, ?_, h2⟩
  · rw [← ver_short]; exact C38_short_round_trip _ (ver_canonical hx)
  · simpa only [Specifier.accepts] using h1

example : (⟨.under, [1, 2]⟩ : Need).text = "==1.2.*".toList ∧ (⟨.under, [1, 2]⟩ : Need).WellFormed ∧ (⟨.under, [1, 2]⟩ : Need).Holds [1, 2, 7] ∧
    ¬ (⟨.under, [1, 2]⟩ : Need).Holds [1, 20] := by
  refine ⟨by decide +kernel, by simp [Need.WellFormed], ?_, ?_⟩ <;> unfold Need.Holds <;> decide
example : (⟨.tildeEqual, [1, 2]⟩ : Need).text = "~=1.2".toList ∧ ((Specifier.parse "~=1.2".toList).bind fun s => s.accepts (exVersion [1, 20])) = .ok true :=
  ⟨by decide +kernel, by rfl⟩

theorem FromText.need_set (lim : Nat) (n : Need) (hn : n.WellFormed) : ∃ z, VSet.parse lim n.text = .ok z := by
  have h : VSet.parse lim n.text = (operator n).toSet lim := by
    unfold VSet.parse
    rw [need_parse n hn]
    show (Specifier.one (operator n)).toSet lim = _
    rw [Specifier.toSet]
  have hv : (operator n).Valid := by
    obtain ⟨s, a⟩ := n
    obtain ⟨h1, h2⟩ := hn
    simp only at h1 h2
    unfold operator
    split
    · rename_i hw
      refine ⟨ver_valid (by simp), ver_nonNeg _, fun ht => ?_⟩
      simp only at ht hw
      rw [ht] at hw
      cases hw
    · refine ⟨ver_valid h1, ver_nonNeg _, fun ht => ?_⟩
      have hs : s = .tildeEqual := by revert ht; cases s <;> simp [op]
      rw [ver_precision]
      exact h2 hs
  have hb : ¬ (operator n).Broken := by
    rintro ⟨hd, -⟩
    refine hd.2.1 ?_
    unfold operator
    split <;> rfl
  obtain ⟨z, hz⟩ := (C16_failure _ hv lim).1 hb
  exact ⟨z, h ▸ hz lim⟩

theorem FromText.all_parse (l : List Need) (hl : l ≠ []) (h : ∀ n ∈ l, n.WellFormed) :
    ('|' ∉ allText l ∧ ∀ lim, ∃ z, VSet.parse lim (allText l) = .ok z) ∧ ∃ s, Specifier.parse (allText l) = .ok s ∧
      ∀ x, x ≠ [] → (s.accepts (ver x) = .ok true ↔ ∀ n ∈ l, n.Holds x) := by
  induction l with
  | nil => exact absurd rfl hl
  | cons n l ih =>
    have hn := h n (by simp)
    have one : ∀ x, x ≠ [] → ((Specifier.one (operator n)).accepts (ver x) = .ok true ↔ n.Holds x) := by
      intro x hx
      obtain ⟨b, h1, h2⟩ := need_accepts n hn x hx
      rw [Specifier.accepts, h1, ← h2]
      simp
    cases l with
    | nil => exact ⟨⟨by simpa [allText, List.intercalate] using pipe_text n,
        fun lim => by simpa [allText, List.intercalate] using need_set lim n hn⟩, _, by simpa [allText, List.intercalate] using need_parse n hn, by simpa using one⟩
    | cons m l =>
      obtain ⟨⟨hp, hs⟩, s, h1, h2⟩ := ih (by simp) (fun n hn => h n (List.mem_cons_of_mem _ hn))
      have e : allText (n :: m :: l) = n.text ++ ",".toList ++ allText (m :: l) := by
        simp [allText, List.intercalate_cons_cons]
      obtain ⟨z, z1, z2⟩ := C75_and _ _ (pipe_text n) hp _ _ (need_parse n hn) h1
      refine ⟨⟨?_, fun lim => ?_⟩, z, e ▸ z1, fun x hx => ?_⟩
      · rw [e]
        simp only [List.mem_append, not_or]
        exact ⟨⟨pipe_text n, by decide⟩, hp⟩
      · obtain ⟨p, hp'⟩ := need_set lim n hn
        obtain ⟨q, hq⟩ := hs lim
        obtain ⟨r, -, hr, -⟩ := C75_and_set lim lim _ _ (pipe_text n) hp _ _ hp' hq
        exact ⟨r, e ▸ hr⟩
      · rw [z2, one x hx, h2 x hx]; simp

theorem FromText.any_parse (f : List (List Need)) (hf : f ≠ []) (h : ∀ l ∈ f, l ≠ [] ∧ ∀ n ∈ l, n.WellFormed) :
    ∃ s, Specifier.parse (anyText f) = .ok s ∧ ∀ x, x ≠ [] → (s.accepts (ver x) = .ok true ↔ ∃ l ∈ f, ∀ n ∈ l, n.Holds x) := by
  induction f with
  | nil => exact absurd rfl hf
  | cons l f ih =>
    obtain ⟨-, s, h1, h2⟩ := all_parse l (h l (by simp)).1 (h l (by simp)).2
    cases f with
    | nil => exact ⟨s, by simpa [anyText, List.intercalate] using h1, by simpa using h2⟩
    | cons m f =>
      obtain ⟨t, t1, t2⟩ := ih (by simp) (fun n hn => h n (List.mem_cons_of_mem _ hn))
      obtain ⟨z, -, z1, z2⟩ := C75_or _ _ _ _ h1 t1
      refine ⟨z, ?_, fun x hx => ?_⟩
      · have e : anyText (l :: m :: f) = allText l ++ "||".toList ++ anyText (m :: f) := by
          simp [anyText, List.intercalate_cons_cons]
        exact e ▸ z1
      · rw [z2, h2 x hx, t2 x hx]; simp

theorem FromText.spaced {s t : PyStr} (h : t.filter (fun c => !isSpace c) = s) : Specifier.parse t = Specifier.parse s :=
  C43_whitespace _ _ (by rw [← h, List.filter_filter]; simp)

/-- C122. Requirements with commas and bars between them, and with whitespace anywhere, are read as a specifier that accepts the
version read from release numbers exactly if the numbers satisfy all requirements of one of the groups. -/
theorem C122_formula (f : List (List Need)) (hf : f ≠ []) (h : ∀ l ∈ f, l ≠ [] ∧ ∀ n ∈ l, n.WellFormed) (t : PyStr)
    (ht : t.filter (fun c => !isSpace c) = anyText f) (x : List Nat) (hx : x ≠ []) :
    ∃ s v b, Specifier.parse t = .ok s ∧ Version.parse (relText x) = .ok v ∧ s.accepts v = .ok b ∧
      (b = true ↔ ∃ l ∈ f, ∀ n ∈ l, n.Holds x) := by
  obtain ⟨s, h1, h2⟩ := any_parse f hf h
  obtain ⟨b, hb⟩ := C32_accepts_total s (C52_valid _ _ h1) (ver x)
  refine ⟨s, ver x, b, (spaced ht).trans h1, ?_, hb, ?_⟩
  · rw [← ver_short]; exact C38_short_round_trip _ (ver_canonical hx)
  · rw [← h2 x hx, hb]; simp

/-- `^ 1.2, != 1.5 || == 3.*` accepts the release numbers that start with 1 and are not below 1.2, except 1.5, 1.5.0, …, and those
that start with 3. -/
def exNeeds : List (List Need) := [[⟨.caret, [1, 2]⟩, ⟨.notEqual, [1, 5]⟩], [⟨.under, [3]⟩]]

example : ("^ 1.2, != 1.5 || == 3.*".toList).filter (fun c => !isSpace c) = anyText exNeeds := by decide +kernel
example : ∀ l ∈ exNeeds, l ≠ [] ∧ ∀ n ∈ l, n.WellFormed := by simp [exNeeds, Need.WellFormed]
example : ∃ l ∈ exNeeds, ∀ n ∈ l, n.Holds [1, 10] :=
  ⟨_, .head _, fun n hn => by
    rcases List.mem_cons.1 hn with rfl | hn
    · refine ⟨?_, 0, by decide, by decide, .inl (by decide), by decide⟩
      rintro ⟨i, h1, h2⟩
      rcases i with _ | _ | i
      · exact absurd h2 (by decide)
      · exact absurd h2 (by decide)
      · exact absurd (h1 1 (by omega)) (by decide)
    · rcases List.mem_cons.1 hn with rfl | hn
      · exact ⟨1, by decide⟩
      · cases hn⟩
example : ¬ ∃ l ∈ exNeeds, ∀ n ∈ l, n.Holds [1, 5, 0] := by
  rintro ⟨l, hl, h⟩
  rcases List.mem_cons.1 hl with rfl | hl
  · obtain ⟨i, hi⟩ := h ⟨.notEqual, [1, 5]⟩ (by simp)
    rcases i with _ | _ | _ | i <;> exact hi rfl
  · rcases List.mem_cons.1 hl with rfl | hl
    · exact absurd (h ⟨.under, [3]⟩ (by simp) 0 (by decide)) (by decide)
    · cases hl
/-- C122. When the same string is read as a version set, the set contains the version under the same condition; one group
alone is always read as a set. -/
theorem C122_set (f : List (List Need)) (hf : f ≠ []) (h : ∀ l ∈ f, l ≠ [] ∧ ∀ n ∈ l, n.WellFormed) (t : PyStr)
    (ht : t.filter (fun c => !isSpace c) = anyText f) (x : List Nat) (hx : x ≠ []) :
    ∃ v, Version.parse (relText x) = .ok v ∧ ∀ lim, (f.length = 1 → ∃ z, VSet.parse lim t = .ok z) ∧
      ∀ z, VSet.parse lim t = .ok z → (z.contains v = true ↔ ∃ l ∈ f, ∀ n ∈ l, n.Holds x) := by
  obtain ⟨s, h1, h2⟩ := any_parse f hf h
  have reads := spaced ht
  refine ⟨ver x, ?_, fun lim => ⟨fun hl => ?_, fun z hz => ?_⟩⟩
  · rw [← ver_short]; exact C38_short_round_trip _ (ver_canonical hx)
  · obtain ⟨l, rfl⟩ := List.length_eq_one_iff.1 hl
    have hp : VSet.parse lim t = VSet.parse lim (anyText [l]) := by unfold VSet.parse; rw [reads]
    rw [hp]
    simpa [anyText, List.intercalate] using (all_parse l (h l (by simp)).1 (h l (by simp)).2).1.2 lim
  · obtain ⟨-, y, t1, t2⟩ := C53_set lim _ z hz
    rw [reads, h1] at t1
    cases t1
    obtain ⟨b, b1, b2⟩ := t2 (ver x)
    rw [vset_contains_iff_mem, ← b2, ← h2 x hx, b1]; simp

example : VSet.parse 5 "^1,!=1.5".toList = .ok (.union [exRange (some [1]) (some [1, 5]), exRange (some [1, 5]) (some [2]) false]) := by
  decide +kernel

end Verif
