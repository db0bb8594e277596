import Verif.Proofs.SetPrinting
import Verif.Model.Functions
import Verif.Props.Parsing
import Verif.Props.Caches
/-!
# Reading and printing specifiers and version sets (C43-C47)
-/

namespace Verif
open scoped Verif

/-! ## C43 -/

/-- C43. Whitespace is what `str.isspace` holds of: the characters of Unicode with bidirectional type WS, B or S, or category Zs. -/
theorem C43_spaces (c : Char) : isSpace c = true ↔ c.toNat ∈ [0x09, 0x0a, 0x0b, 0x0c, 0x0d, 0x1c, 0x1d, 0x1e, 0x1f, 0x20, 0x85, 0xa0, 0x1680,
    0x2000, 0x2001, 0x2002, 0x2003, 0x2004, 0x2005, 0x2006, 0x2007, 0x2008, 0x2009, 0x200a, 0x2028, 0x2029, 0x202f, 0x205f, 0x3000] := by
  simp only [isSpace, Bool.or_eq_true, Bool.and_eq_true, decide_eq_true_eq, List.mem_cons, List.not_mem_nil, or_false]
  omega

example : isSpace ' ' = true ∧ isSpace '\t' = true ∧ isSpace '_' = false := by decide

/-- C43. Strings with the same characters that are not whitespace are read the same. -/
theorem C43_whitespace (s t : PyStr) (h : s.filter (fun c => !isSpace c) = t.filter (fun c => !isSpace c)) :
    Specifier.parse s = Specifier.parse t := by
  unfold Specifier.parse
  rw [clearWhitespace_eq, clearWhitespace_eq, h]

example : Specifier.parse " > = 1 . 0\t,\n<2||== 3 .*".toList = Specifier.parse ">=1.0,<2||==3.*".toList :=
  C43_whitespace _ _ (by decide +kernel)

/-- C43. Parts without pipes, those between two pipes not blank, may be joined by `|` or `||`. -/
theorem C43_pipes (a : PyStr) (l m : List (Bool × PyStr)) (hlm : l.map (·.2) = m.map (·.2)) (ha : '|' ∉ a) (hl : ∀ x ∈ l, '|' ∉ x.2)
    (hb : ∀ x ∈ l.dropLast, ∃ c ∈ x.2, isSpace c = false) : Specifier.parse (pipes a l) = Specifier.parse (pipes a m) := by
  have no : ∀ {s : PyStr}, '|' ∉ s → ∀ c ∈ clearWhitespace s, c ≠ '|' := by
    rintro s hs c hc rfl
    rw [clearWhitespace_eq] at hc
    exact hs (List.mem_filter.1 hc).1
  have key : ∀ n : List (Bool × PyStr), n.map (·.2) = m.map (·.2) →
      splitPipes (clearWhitespace (pipes a n)) = clearWhitespace a :: (m.map (·.2)).map clearWhitespace := by
    intro n hn
    rw [clear_pipes, splitPipes_pipes _ _ (no ha)]
    · rw [← hn, List.map_map, List.map_map]
      rfl
    · intro x hx
      obtain ⟨y, hy, rfl⟩ := List.mem_map.1 hx
      apply no
      have : y.2 ∈ l.map (·.2) := by rw [hlm, ← hn]; exact List.mem_map_of_mem hy
      obtain ⟨z, hz, e⟩ := List.mem_map.1 this
      rw [← e]
      exact hl z hz
    · intro x hx
      rw [← List.map_dropLast] at hx
      obtain ⟨y, hy, rfl⟩ := List.mem_map.1 hx
      have : y.2 ∈ l.dropLast.map (·.2) := by
        rw [List.map_dropLast, hlm, ← hn, ← List.map_dropLast]
        exact List.mem_map_of_mem hy
      obtain ⟨z, hz, e⟩ := List.mem_map.1 this
      obtain ⟨c, hc, hs⟩ := hb z hz
      intro h0
      rw [← e, clearWhitespace_eq, List.filter_eq_nil_iff] at h0
      exact h0 c hc (by simp [hs])
  unfold Specifier.parse Specifier.parseAny
  rw [key l hlm, key m rfl]

example : Specifier.parse ">1|<3||=5".toList = Specifier.parse ">1||<3|=5".toList :=
  C43_pipes ">1".toList [(false, "<3".toList), (true, "=5".toList)] [(true, "<3".toList), (false, "=5".toList)] rfl (by decide)
    (by decide) (by decide +kernel)

/-- The parts are then read one by one, and the whole is the disjunction. -/
theorem C43_parts (a : PyStr) (l : List (Bool × PyStr)) (ha : '|' ∉ a) (hl : ∀ x ∈ l, '|' ∉ x.2)
    (hb : ∀ x ∈ l.dropLast, ∃ c ∈ x.2, isSpace c = false) :
    Specifier.parse (pipes a l) = (mapAll Specifier.parse (a :: l.map (·.2))).bind Specifier.anyOf := by
  have no : ∀ {s : PyStr}, '|' ∉ s → ∀ c ∈ clearWhitespace s, c ≠ '|' := by
    rintro s hs c hc rfl
    rw [clearWhitespace_eq] at hc
    exact hs (List.mem_filter.1 hc).1
  have one : ∀ s : PyStr, '|' ∉ s → Specifier.parse s = Specifier.parseAll (clearWhitespace s) := by
    intro s hs
    unfold Specifier.parse Specifier.parseAny
    have : splitPipes (clearWhitespace s) = [clearWhitespace s] := splitPipes_pipes [] _ (no hs) (by simp) (by simp)
    rw [this]
    simp only [mapAll]
    cases Specifier.parseAll (clearWhitespace s) <;> rfl
  have all : ∀ l : List PyStr, (∀ s ∈ l, '|' ∉ s) → mapAll Specifier.parse l = mapAll Specifier.parseAll (l.map clearWhitespace) := by
    intro l h
    induction l with
    | nil => rfl
    | cons s l ih =>
      simp only [List.map_cons, mapAll]
      rw [one s (h s (by simp)), ih (fun t ht => h t (by simp [ht]))]
  rw [all]
  · unfold Specifier.parse Specifier.parseAny
    rw [clear_pipes, splitPipes_pipes _ _ (no ha)]
    · simp only [List.map_cons, List.map_map]
      rfl
    · intro x hx
      obtain ⟨y, hy, rfl⟩ := List.mem_map.1 hx
      exact no (hl y hy)
    · intro x hx
      rw [← List.map_dropLast] at hx
      obtain ⟨y, hy, rfl⟩ := List.mem_map.1 hx
      obtain ⟨c, hc, hs⟩ := hb y hy
      intro h0
      rw [clearWhitespace_eq, List.filter_eq_nil_iff] at h0
      exact h0 c hc (by simp [hs])
  · intro s hs
    rcases List.mem_cons.1 hs with rfl | hs
    · exact ha
    · obtain ⟨x, hx, rfl⟩ := List.mem_map.1 hs
      exact hl x hx

example : Specifier.parse "1 | 2 || 3".toList = Specifier.parse "1 || 2 | 3".toList ∧
    Specifier.parse "1 | 2 || 3".toList = .ok (.any [.one ⟨.equal, exVersion [1]⟩, .one ⟨.equal, exVersion [2]⟩, .one ⟨.equal, exVersion [3]⟩]) :=
  ⟨C43_pipes "1 ".toList [(false, " 2 ".toList), (true, " 3".toList)] [(true, " 2 ".toList), (false, " 3".toList)] rfl (by decide)
    (by decide) (by decide), by rfl⟩

/-- The hypothesis on blank parts is needed: in `1 | | 2` the two pipes become one `||`, while `1 || || 2` is an error. -/
example : Specifier.parse "1 | | 2".toList = .ok (.any [.one ⟨.equal, exVersion [1]⟩, .one ⟨.equal, exVersion [2]⟩]) ∧
    Specifier.parse "1 || || 2".toList = .error .parseSpecificationError := ⟨by rfl, by rfl⟩

/-! ## C44 -/

/-- C44. The short string of a specifier with one operator that is not a wildcard is read as that specifier. (The
constructor has accepted the operator; a local segment is possible in `=`, `==` and `!=` only.) -/
theorem C44_short (o : Operator) (hc : Operator.create o.type o.version = .ok o) (hv : o.version.Canonical) (ht : o.type.isWildcard = false)
    (hl : o.version.local_ = none ∨ o.type = .equal ∨ o.type = .doubleEqual ∨ o.type = .notEqual) :
    Specifier.parse (Specifier.one o).toShortStr = .ok (.one o) := (reads_short hv ht hl hc).parse

example : (Specifier.one ⟨.tildeEqual, exVersion [1, 2]⟩).toShortStr = "~=1.2".toList ∧ Specifier.parse "~=1.2".toList = .ok (.one ⟨.tildeEqual, exVersion [1, 2]⟩) :=
  ⟨by decide +kernel, by rfl⟩

/-- C44. The same for the string, if the version has no candidate tag. -/
theorem C44_long (o : Operator) (hc : Operator.create o.type o.version = .ok o) (hv : o.version.Canonical) (hn : NoCandidate o.version)
    (ht : o.type.isWildcard = false)
    (hl : o.version.local_ = none ∨ o.type = .equal ∨ o.type = .doubleEqual ∨ o.type = .notEqual) :
    Specifier.parse (Specifier.one o).toStr = .ok (.one o) := (reads_long hv hn ht hl hc).parse

example : (Specifier.one ⟨.notEqual, exVersion [1, 2] none (some ⟨"post".toList, 3⟩)⟩).toStr = "!= 1.2-post.3".toList ∧
    Specifier.parse "!= 1.2-post.3".toList = .ok (.one ⟨.notEqual, exVersion [1, 2] none (some ⟨"post".toList, 3⟩)⟩) := ⟨by decide +kernel, by rfl⟩

/-- C44. The short string of a wildcard specifier is read as the specifier with 0 as the last number of the version: the
same specifier iff that number is 0. -/
theorem C44_wildcard_short (o : Operator) (hv : o.version.Canonical) (ht : o.type.isWildcard = true) (hl : o.version.local_ = none) :
    Specifier.parse (Specifier.one o).toShortStr = .ok (.one ⟨o.type, o.version.zeroLast⟩) := (reads_wild_short hv ht hl).parse

example : (Specifier.one ⟨.wildcardDoubleEqual, exVersion [1, 2, 5]⟩).toShortStr = "==1.2.*".toList ∧
    Specifier.parse "==1.2.*".toList = .ok (.one ⟨.wildcardDoubleEqual, exVersion [1, 2, 0]⟩) ∧ (exVersion [1, 2, 5]).zeroLast = exVersion [1, 2, 0] :=
  ⟨by decide +kernel, by rfl, by decide +kernel⟩

/-- C44. The same for the string, if the version has no candidate tag. -/
theorem C44_wildcard_long (o : Operator) (hv : o.version.Canonical) (hn : NoCandidate o.version) (ht : o.type.isWildcard = true)
    (hl : o.version.local_ = none) :
    Specifier.parse (Specifier.one o).toStr = .ok (.one ⟨o.type, o.version.zeroLast⟩) := (reads_wild_long hv hn ht hl).parse

example : (Specifier.one ⟨.wildcardEqual, exVersion [1, 2] (some ⟨"rc".toList, 5⟩)⟩).toStr = "= 1.2-rc.*".toList ∧
    Specifier.parse "= 1.2-rc.*".toList = .ok (.one ⟨.wildcardEqual, exVersion [1, 2] (some ⟨"rc".toList, 0⟩)⟩) := ⟨by decide +kernel, by rfl⟩

/-- C44. So wildcard specifiers on versions whose last number is 0 are read back. -/
theorem C44_wildcard_zero (o : Operator) (hv : o.version.Canonical) (ht : o.type.isWildcard = true) (hl : o.version.local_ = none)
    (hz : o.version.zeroLast = o.version) :
    Specifier.parse (Specifier.one o).toShortStr = .ok (.one o) ∧
      (NoCandidate o.version → Specifier.parse (Specifier.one o).toStr = .ok (.one o)) := by
  have h1 := C44_wildcard_short o hv ht hl
  have h2 := fun hn => C44_wildcard_long o hv hn ht hl
  rw [hz] at h1 h2
  exact ⟨h1, h2⟩

example : (exVersion [1, 2, 0]).zeroLast = exVersion [1, 2, 0] ∧ (Specifier.one ⟨.wildcardEqual, exVersion [1, 2, 0]⟩).toShortStr = "=1.2.*".toList := by
  decide +kernel

/-- C44. The hypotheses are needed: with a local segment, the strings of order, caret, tilde and wildcard operators are not
read at all. -/
theorem C44_local_fails (o : Operator) (hv : o.version.Canonical) (hl : o.version.local_ ≠ none)
    (ht : o.type ≠ .equal ∧ o.type ≠ .doubleEqual ∧ o.type ≠ .notEqual) :
    Specifier.parse (Specifier.one o).toShortStr = .error .parseSpecificationError := by
  obtain ⟨t, v⟩ := o
  dsimp only at *
  have hp := (good_shortSpelling hv).1
  have hpl : (shortSpelling v).local_ ≠ none := by
    simp only [shortSpelling, canonicalSpelling]
    cases h : v.local_ with
    | none => exact absurd h hl
    | some l => simp
  have plus : '+' ∈ (shortSpelling v).text := by
    cases h : (shortSpelling v).local_ with
    | none => exact absurd h hpl
    | some l => simp [Spelling.text, h, Spelling.localText, Spelling.optText]
  obtain ⟨-, h2, -, h4⟩ := op_words t
  show Specifier.parse (Operator.toShortStr ⟨t, v⟩) = _
  rw [parse_opShortStr, text_short hv.valid]
  have hpt : Plain (shortSpelling v).text := fun c hc => text_specials hp hc
  unfold opText
  cases hw : t.isWildcard with
  | true =>
    dsimp only
    rw [if_pos rfl, parse_plain]
    · exact single_wild_local plus
    · apply Plain.append (op_plain h4)
      unfold wildcardString
      rw [join_none]
      apply Plain.append
      · intro c hc
        apply hpt c
        unfold rstripBy at hc
        rw [List.mem_reverse] at hc
        exact List.mem_reverse.1 ((List.dropWhile_suffix _).subset hc)
      · intro c hc
        rw [List.mem_singleton] at hc
        subst hc
        decide
  | false =>
    dsimp only
    rw [if_neg (by simp), parse_plain (Plain.append (op_plain h4) hpt)]
    have : (t.string, t) ∈ compareWords := by
      obtain ⟨g1, g2, g3⟩ := ht
      cases t <;> first | exact absurd rfl g1 | exact absurd rfl g2 | exact absurd rfl g3 | decide | exact absurd hw (by decide)
    exact single_local this hp hpl

example : Specifier.parse (Specifier.one ⟨.caret, exVersion [1] none none none (some ⟨[.int 1]⟩)⟩).toShortStr = .error .parseSpecificationError := by rfl

/-- C44. With a candidate tag, the string is not read. -/
theorem C44_candidate_fails (o : Operator) (hv : o.version.Canonical) (hn : ¬ NoCandidate o.version) :
    Specifier.parse (Specifier.one o).toStr = .error .parseSpecificationError := by
  obtain ⟨t, v⟩ := o
  dsimp only at *
  simp only [NoCandidate, not_forall, not_not] at hn
  obtain ⟨g, hg, hc⟩ := hn
  have hN : HasN v.toStr := candidate_n hv hg hc
  have hp : Plain v.toStr := by
    have h0 := (good_longSpelling (v := { v with pre := none }) ⟨⟨hv.valid.release, (by intro t ht; cases ht), hv.valid.post, hv.valid.dev, hv.valid.local_⟩,
      hv.epoch, hv.release, (by intro t ht; cases ht), hv.post, hv.dev, hv.local_⟩ (by intro t ht; cases ht)).1
    have h1 : Plain (longTag g).text := by
      have e : (longTag g).text = "-candidate.".toList ++ intStr g.value := by
        unfold longTag TagSpelling.text TagSpelling.body TagSpelling.valueText
        rw [hc]
        rfl
      rw [e]
      apply Plain.append
      · unfold Plain; decide
      · intro c hc hs
        have hd := (intStr_digits (hv.pre g hg)).2 c hc
        have : ∀ c ∈ specials, ¬ IsDigit c := by decide
        exact this c hs hd
    intro c hc
    rw [text_long hv.valid] at hc
    have e : (longSpelling v).pre = some (longTag g) := by simp [longSpelling, canonicalSpelling, hg]
    simp only [Spelling.text, e, Spelling.optText, List.mem_append] at hc
    by_cases hm : c ∈ (longTag g).text
    · exact h1 c hm
    · refine text_specials h0 (c := c) ?_
      simp only [Spelling.text, List.mem_append]
      simp only [longSpelling, canonicalSpelling, Spelling.optText] at hc ⊢
      tauto
  obtain ⟨-, -, -, h4⟩ := op_words t
  show Specifier.parse (Operator.toStr ⟨t, v⟩) = _
  rw [parse_opStr]
  have hw : Plain (opText t v.toStr) ∧ HasN (opText t v.toStr) := by
    unfold opText
    split
    · refine ⟨?_, hasN_wildcard hN⟩
      unfold wildcardString
      rw [join_none]
      apply Plain.append
      · intro c hc
        apply hp c
        unfold rstripBy at hc
        rw [List.mem_reverse] at hc
        exact List.mem_reverse.1 ((List.dropWhile_suffix _).subset hc)
      · intro c hc
        rw [List.mem_singleton] at hc
        subst hc
        decide
    · exact ⟨hp, hN⟩
  dsimp only
  rw [parse_plain (Plain.append (op_plain h4) hw.1)]
  exact single_hasN ((hasN_op h4).2 hw.2)

example : Specifier.parse (Specifier.one ⟨.caret, exVersion [1, 2] (some ⟨"rc".toList, 1⟩)⟩).toStr =
      .ok (.one ⟨.caret, exVersion [1, 2] (some ⟨"rc".toList, 1⟩)⟩) ∧
    (Specifier.one ⟨.notEqual, exFull⟩).toShortStr = "!=1!2.0rc1.r2.dev3+ab.4".toList ∧
    Specifier.parse (Specifier.one ⟨.notEqual, exFull⟩).toShortStr = .ok (.one ⟨.notEqual, exFull⟩) :=
  ⟨by rfl, by decide +kernel, C44_short ⟨.notEqual, exFull⟩ rfl exFull_canonical rfl (.inr (.inr (.inr rfl)))⟩
example : (Specifier.one ⟨.wildcardNotEqual, exVersion [1, 2, 0]⟩).toStr = "!= 1.2.*".toList ∧
    Specifier.parse "!= 1.2.*".toList = .ok (.one ⟨.wildcardNotEqual, exVersion [1, 2, 0]⟩) := ⟨by decide +kernel, by rfl⟩

/-- Printing and reading changes the meaning of `==*` on 1.2.5, from `[1.2.5, 1.3)` to `[1.2.0, 1.3)`. -/
example : (Specifier.one ⟨.wildcardDoubleEqual, exVersion [1, 2, 5]⟩).toStr = "== 1.2.*".toList ∧
    (Specifier.one ⟨.wildcardDoubleEqual, exVersion [1, 2, 5]⟩).accepts (exVersion [1, 2, 4]) = .ok false ∧
    ((Specifier.parse "== 1.2.*".toList).bind fun s => s.accepts (exVersion [1, 2, 4])) = .ok true :=
  ⟨by decide +kernel, by decide +kernel, by decide +kernel⟩
example : (Specifier.one ⟨.less, exVersion [1] (some ⟨"candidate".toList, 1⟩)⟩).toStr = "< 1-candidate.1".toList ∧
    Specifier.parse "< 1-candidate.1".toList = .error .parseSpecificationError := ⟨by decide +kernel, by rfl⟩
example : Specifier.parse (Specifier.one ⟨.less, exFull⟩).toShortStr = .error .parseSpecificationError :=
  C44_local_fails _ exFull_canonical (by decide) (by decide)

/-! ## C45 -/

/-- C45. The short string of a set in normal form which is not empty, with canonical ends (public for ranges), is read as an
equal set. -/
theorem C45_short (x : VSet) (hx : x.Normal) (hne : x ≠ .empty)
    (hc : ∀ i, x.Has i → ∀ v, i.min = some v ∨ i.max = some v → v.Canonical)
    (hp : ∀ r, x.Has (.range r) → ∀ v, r.min = some v ∨ r.max = some v → v.local_ = none) :
    ∃ s y, (∀ lim, x.toShortStr lim = .ok s) ∧ (∀ lim, VSet.parse (lim + 2) s = .ok y) ∧ y.Normal ∧ y.eq x = true := by
  refine short_set_round_trip hx hne fun i hi => ?_
  cases i with
  | point v => exact hc _ hi v (.inl rfl)
  | range r =>
    exact ⟨fun v hv => ⟨hc _ hi v (.inl hv), hp r hi v (.inl hv)⟩, fun v hv => ⟨hc _ hi v (.inr hv), hp r hi v (.inr hv)⟩⟩

example : (VSet.union [exRange none (some [1]) false, exPoint [4, 1]]).toShortStr 5 = .ok "<1||4.1".toList ∧
    VSet.parse 5 "<1||4.1".toList = .ok (.union [exRange none (some [1]) false, exPoint [4, 1]]) := by decide +kernel

/-- C45. The same for the string, if the ends have no candidate tag. -/
theorem C45_long (x : VSet) (hx : x.Normal) (hne : x ≠ .empty)
    (hc : ∀ i, x.Has i → ∀ v, i.min = some v ∨ i.max = some v → v.Canonical ∧ NoCandidate v)
    (hp : ∀ r, x.Has (.range r) → ∀ v, r.min = some v ∨ r.max = some v → v.local_ = none) :
    ∃ s y, (∀ lim, x.toStr lim = .ok s) ∧ (∀ lim, VSet.parse (lim + 2) s = .ok y) ∧ y.Normal ∧ y.eq x = true := by
  refine long_set_round_trip hx hne fun i hi => ?_
  cases i with
  | point v => exact hc _ hi v (.inl rfl)
  | range r =>
    exact ⟨fun v hv => ⟨(hc _ hi v (.inl hv)).1, (hc _ hi v (.inl hv)).2, hp r hi v (.inl hv)⟩,
      fun v hv => ⟨(hc _ hi v (.inr hv)).1, (hc _ hi v (.inr hv)).2, hp r hi v (.inr hv)⟩⟩

example : (VSet.item (exRange (some [1]) (some [2]))).toStr 5 = .ok ">= 1, < 2".toList ∧
    VSet.parse 5 ">= 1, < 2".toList = .ok (.item (exRange (some [1]) (some [2]))) := by decide +kernel

/-- C45, violated for the empty set: it prints as `0`, which is read as the version 0. -/
theorem C45_empty (lim : Nat) : VSet.empty.toStr lim = .ok "0".toList ∧ VSet.empty.toShortStr lim = .ok "0".toList ∧
    VSet.parse lim "0".toList = .ok (.item (exPoint [0])) := by
  refine ⟨rfl, rfl, ?_⟩
  show VSet.parse 0 "0".toList = _
  decide +kernel

example : (VSet.union [exRange none (some [1]) false false, exRange (some [2]) (some [3]), exPoint [4, 1]]).toStr 5 =
      .ok "< 1 || >= 2, < 3 || 4.1".toList ∧
    VSet.parse 5 "< 1 || >= 2, < 3 || 4.1".toList =
      .ok (.union [exRange none (some [1]) false false, exRange (some [2]) (some [3]), exPoint [4, 1]]) ∧
    (VSet.union [exRange none (some [1]) false false, exRange (some [1]) none false false]).toStr 5 = .ok "!= 1".toList ∧
    VSet.parse 5 "!= 1".toList = .ok (.union [exRange none (some [1]) false false, exRange (some [1]) none false false]) ∧
    VSet.universal.toStr 5 = .ok "*".toList ∧ VSet.parse 5 "*".toList = .ok .universal := by
  decide +kernel

/-- Ends of ranges with a local segment are not read. -/
example : (VSet.item (.range ⟨some exFull, none, false, false⟩)).toShortStr 5 = .ok ">1!2.0rc1.r2.dev3+ab.4".toList ∧
    VSet.parse 5 ">1!2.0rc1.r2.dev3+ab.4".toList = .error .parseSpecificationError := by
  decide +kernel

/-! ## C46 -/

/-- C46. No string of a disjunction or conjunction is read. -/
theorem C46_not_read (l : List Specifier) :
    Specifier.parse (Specifier.any l).toStr = .error .parseSpecificationError ∧
    Specifier.parse (Specifier.any l).toShortStr = .error .parseSpecificationError ∧
    Specifier.parse (Specifier.all l).toStr = .error .parseSpecificationError ∧
    Specifier.parse (Specifier.all l).toShortStr = .error .parseSpecificationError := by
  simp only [Specifier.toStr, Specifier.toShortStr, wrapAround, List.cons_append]
  exact ⟨parse_paren _, parse_paren _, parse_paren _, parse_paren _⟩

example : (Specifier.any [.one ⟨.less, exVersion [1]⟩, .one ⟨.equal, exVersion [2]⟩]).toStr = "(< 1 || = 2)".toList := by decide +kernel

/-- C46. Parentheses are not part of the grammar. -/
theorem C46_parentheses (s : PyStr) : Specifier.parse ('(' :: s) = .error .parseSpecificationError := parse_paren s

example : (Specifier.all [.one ⟨.greater, exVersion [1]⟩, .one ⟨.less, exVersion [2]⟩]).toStr = "(> 1, < 2)".toList ∧
    Specifier.parse "> 1, < 2".toList = .ok (.all [.one ⟨.greater, exVersion [1]⟩, .one ⟨.less, exVersion [2]⟩]) := ⟨by decide +kernel, by rfl⟩

/-! ## C47 -/

theorem wrap_pure {β : Type} (hash : PyStr → Int) (f : PyStr → Except PyErr β) (s : PyStr) (c : Cache PyStr β) (hc : ∀ e ∈ c, f e.1 = .ok e.2) :
    let r := Cached.wrap hash (fun a b => decide (a = b)) s (.pure (f s)) c
    r.1 = f s ∧ ∀ e ∈ r.2, f e.1 = .ok e.2 := by
  unfold Cached.wrap
  dsimp only
  split
  · next e he =>
    have := List.find?_some he
    simp only [Bool.and_eq_true, decide_eq_true_eq] at this
    refine ⟨?_, hc⟩
    rw [← this.2, hc e (List.mem_of_find?_eq_some he)]
  · unfold Cached.pure
    cases hf : f s with
    | error e => exact ⟨rfl, hc⟩
    | ok x =>
      refine ⟨rfl, ?_⟩
      intro e he
      rcases List.mem_cons.1 he with rfl | he
      · exact hf
      · exact hc e he

theorem after_pure {β : Type} (hash : PyStr → Int) (f : PyStr → Except PyErr β) (history : List PyStr) :
    ∀ e ∈ Cached.after (history.map (fun s => Cached.wrap hash (fun a b => decide (a = b)) s (.pure (f s)))), f e.1 = .ok e.2 := by
  unfold Cached.after
  have : ∀ (l : List PyStr) (c : Cache PyStr β), (∀ e ∈ c, f e.1 = .ok e.2) →
      ∀ e ∈ (l.map (fun s => Cached.wrap hash (fun a b => decide (a = b)) s (.pure (f s)))).foldl (fun c call => (call c).2) c, f e.1 = .ok e.2 := by
    intro l
    induction l with
    | nil => exact fun c hc => hc
    | cons s l ih => exact fun c hc => ih _ (wrap_pure hash f s c hc).2
  exact this history [] (by intro e he; cases he)

/-- C47. Whatever was parsed before, `parse_version` gives what the parser gives (results and exceptions). -/
theorem C47_version (hash : PyStr → Int) (history : List PyStr) (s : PyStr) :
    (parseVersion hash s (Cached.after (history.map (parseVersion hash)))).1 = Version.parse s :=
  (wrap_pure hash Version.parse s _ (after_pure hash Version.parse history)).1

example : (parseVersion (fun _ => 3) "2.0".toList (Cached.after (["1.0".toList, "2.0".toList].map (parseVersion (fun _ => 3))))).1 = .ok (exVersion [2, 0]) := by
  decide +kernel

/-- C47. The same for `parse_specifier`. -/
theorem C47_specifier (hash : PyStr → Int) (history : List PyStr) (s : PyStr) :
    (parseSpecifier hash s (Cached.after (history.map (parseSpecifier hash)))).1 = Specifier.parse s :=
  (wrap_pure hash Specifier.parse s _ (after_pure hash Specifier.parse history)).1

example : (parseVersion (fun _ => 7) "1-1".toList
      (Cached.after (["1.0".toList, "x".toList, "1-1".toList, "1.0".toList].map (parseVersion (fun _ => 7))))).1 =
      .ok (exVersion [1] none (some ⟨"post".toList, 1⟩)) ∧
    (parseSpecifier (fun _ => 7) "~=1".toList
      (Cached.after (["1.0".toList, "~=1".toList].map (parseSpecifier (fun _ => 7))))).1 = .error .valueError :=
  ⟨(C47_version _ _ _).trans (by decide +kernel), (C47_specifier _ _ _).trans (by rfl)⟩

/-- The specifiers that a call has to do with. -/
def SetCall.Over (Q : Operator → Prop) : SetCall → Prop
  | .parse s => ∀ t, Specifier.parse s = .ok t → t.Over Q
  | .convert t => t.Over Q

/-- Caches that hold the right sets. -/
def CachesOk (lim : Nat) (Q : Operator → Prop) (c : SetCaches) : Prop :=
  Specifier.CacheOk lim Q c.converted ∧ ∀ e ∈ c.parsed, SameSet (.ok e.2) (VSet.parse lim e.1)

theorem parseVersionSet_ok (hash : PyStr → Int) (H : Hasher) {lim : Nat} {Q : Operator → Prop} (hQ : Specifier.Coherent (lim + 2) Q) {s : PyStr}
    (hs : (SetCall.parse s).Over Q) {c : SetCaches} (hc : CachesOk (lim + 2) Q c) :
    SameSet (parseVersionSet hash H (lim + 2) s c).1 (VSet.parse (lim + 2) s) ∧ CachesOk (lim + 2) Q (parseVersionSet hash H (lim + 2) s c).2 := by
  obtain ⟨h1, h2⟩ := hc
  unfold parseVersionSet
  split
  · next e he =>
    have := List.find?_some he
    simp only [Bool.and_eq_true, decide_eq_true_eq] at this
    exact ⟨this.2 ▸ h2 e (List.mem_of_find?_eq_some he), h1, h2⟩
  · cases hp : Specifier.parse s with
    | error e => exact ⟨by simp only [VSet.parse, hp, bind, Except.bind]; rfl, h1, h2⟩
    | ok t =>
      obtain ⟨g1, g2⟩ := Specifier.toSetCached_computes H hQ (hs t hp) c.converted h1
      have e : VSet.parse (lim + 2) s = t.toSet (lim + 2) := by simp only [VSet.parse, hp, bind, Except.bind]
      dsimp only [convertCall]
      cases hr : t.toSetCached H (lim + 2) c.converted with
      | mk r c' =>
        rw [hr] at g1 g2
        dsimp only at g1 g2
        cases r with
        | error e' => exact ⟨e ▸ g1, g2, h2⟩
        | ok x =>
          refine ⟨e ▸ g1, g2, ?_⟩
          intro z hz
          rcases List.mem_cons.1 hz with rfl | hz
          · exact e ▸ g1
          · exact h2 z hz

theorem setHistory_ok (hash : PyStr → Int) (H : Hasher) {lim : Nat} {Q : Operator → Prop} (hQ : Specifier.Coherent (lim + 2) Q) (calls : List SetCall)
    (h : ∀ call ∈ calls, call.Over Q) : CachesOk (lim + 2) Q (setHistory hash H (lim + 2) calls) := by
  unfold setHistory
  have : ∀ (l : List SetCall) (c : SetCaches), (∀ call ∈ l, call.Over Q) → CachesOk (lim + 2) Q c →
      CachesOk (lim + 2) Q (l.foldl (fun c call => (call.run hash H (lim + 2) c).2) c) := by
    intro l
    induction l with
    | nil => exact fun c _ hc => hc
    | cons call l ih =>
      intro c hl hc
      refine ih _ (fun x hx => hl x (by simp [hx])) ?_
      have hcall := hl call (by simp)
      cases call with
      | parse s => exact (parseVersionSet_ok hash H hQ hcall hc).2
      | convert t => exact ⟨(Specifier.toSetCached_computes H hQ hcall _ hc.1).2, hc.2⟩
  exact this calls {} h ⟨(by intro e he; cases he), (by intro e he; cases he)⟩

/-- C47. `parse_version_set` after any calls of itself and of the converter, in programs with distinct operators (C36): an
equal set, or the same exception. -/
theorem C47_version_set (hash : PyStr → Int) (H : Hasher) (lim : Nat) (Q : Operator → Prop) (hQ : Distinct Q) (history : List SetCall)
    (hh : ∀ call ∈ history, call.Over Q) (s : PyStr) (hs : ∀ t, Specifier.parse s = .ok t → t.Over Q) :
    EqualResults (parseVersionSet hash H (lim + 2) s (setHistory hash H (lim + 2) history)).1 (VSet.parse (lim + 2) s) :=
  (parseVersionSet_ok hash H (hQ.coherent _) hs (setHistory_ok hash H (hQ.coherent _) history hh)).1.equalResults

/-- Here `Q` holds of the operators of two strings. -/
example (H : Hasher) : EqualResults (parseVersionSet (fun _ => 0) H 7 "~=1.2,<2".toList
      (setHistory (fun _ => 0) H 7 [.parse "<2".toList, .convert (.one ⟨.less, exVersion [2]⟩), .parse "~=1.2,<2".toList])).1
    (.ok (.item (exRange (some [1, 2]) (some [2, 0])))) := by
  have p1 : Specifier.parse "<2".toList = .ok (.one ⟨.less, exVersion [2]⟩) := by rfl
  have p2 : Specifier.parse "~=1.2,<2".toList = .ok (.all [.one ⟨.tildeEqual, exVersion [1, 2]⟩, .one ⟨.less, exVersion [2]⟩]) := by rfl
  have q1 : ∀ Q : Operator → Prop, Q ⟨.less, exVersion [2]⟩ → (SetCall.parse "<2".toList).Over Q := by
    intro Q h t ht
    rw [p1] at ht
    cases ht
    exact .one h
  have q2 : ∀ Q : Operator → Prop, Q ⟨.less, exVersion [2]⟩ → Q ⟨.tildeEqual, exVersion [1, 2]⟩ → (SetCall.parse "~=1.2,<2".toList).Over Q := by
    intro Q h h' t ht
    rw [p2] at ht
    cases ht
    refine .all (by decide) ?_
    intro s hs
    simp only [List.mem_cons, List.not_mem_nil, or_false] at hs
    rcases hs with rfl | rfl
    · exact .one h'
    · exact .one h
  have hv : ∀ a r, (exVersion (a :: r)).Valid := fun a r => ⟨by simp [exVersion], by simp [exVersion], by simp [exVersion], by simp [exVersion], by simp [exVersion]⟩
  have := C47_version_set (fun _ => 0) H 5 (fun o => o = ⟨.tildeEqual, exVersion [1, 2]⟩ ∨ o = ⟨.less, exVersion [2]⟩)
    ⟨(by
      rintro o (rfl | rfl)
      · exact ⟨hv _ _, fun _ => by decide⟩
      · exact ⟨hv _ _, fun h => by cases h⟩), (by
      rintro o p (rfl | rfl) (rfl | rfl) h
      · exact .inr rfl
      · exact absurd h (by decide)
      · exact absurd h (by decide)
      · exact .inr rfl)⟩
    [.parse "<2".toList, .convert (.one ⟨.less, exVersion [2]⟩), .parse "~=1.2,<2".toList]
    (by
      intro call hc
      simp only [List.mem_cons, List.not_mem_nil, or_false] at hc
      rcases hc with rfl | rfl | rfl
      · exact q1 _ (.inr rfl)
      · exact .one (.inr rfl)
      · exact q2 _ (.inr rfl) (.inl rfl)) "~=1.2,<2".toList (q2 _ (.inr rfl) (.inl rfl))
  rwa [show VSet.parse 7 "~=1.2,<2".toList = .ok (.item (exRange (some [1, 2]) (some [2, 0]))) by decide +kernel] at this

/-- C47, violated for `parse_version_set`: after `~=1.0`, the string `~=1.0.0` is read as `[1.0, 2.0)`, not `[1.0.0, 1.1.0)`. -/
theorem C47_violation (hash : PyStr → Int) (H : Hasher) (lim : Nat) :
    (parseVersionSet hash H lim "~=1.0.0".toList (setHistory hash H lim [.parse "~=1.0".toList])).1 =
      .ok (.item (exRange (some [1, 0]) (some [2, 0]))) ∧
    VSet.parse lim "~=1.0.0".toList = .ok (.item (exRange (some [1, 0, 0]) (some [1, 1, 0]))) := by
  have p1 : Specifier.parse "~=1.0".toList = .ok (.one ⟨.tildeEqual, exVersion [1, 0]⟩) := by rfl
  have p2 : Specifier.parse "~=1.0.0".toList = .ok (.one ⟨.tildeEqual, exVersion [1, 0, 0]⟩) := by rfl
  obtain ⟨h1, h2, -, -⟩ := C36_violation H lim
  refine ⟨?_, by simp only [VSet.parse, p2, bind, Except.bind, h2]⟩
  have h0 : (⟨.tildeEqual, exVersion [1, 0]⟩ : Operator).toSet lim = .ok (.item (exRange (some [1, 0]) (some [2, 0]))) := by
    show (⟨.tildeEqual, exVersion [1, 0]⟩ : Operator).toSet 0 = _
    decide +kernel
  have hc : Specifier.toSetHistory H lim [.one ⟨.tildeEqual, exVersion [1, 0]⟩] =
      [(.one ⟨.tildeEqual, exVersion [1, 0]⟩, .item (exRange (some [1, 0]) (some [2, 0])))] := by
    simp only [Specifier.toSetHistory, Cached.after, List.map_cons, List.map_nil, List.foldl_cons, List.foldl_nil,
      Specifier.toSetCached, Cached.wrap, List.find?_nil, Cached.pure, h0]
  have hs : setHistory hash H lim [.parse "~=1.0".toList] = ⟨[("~=1.0".toList, .item (exRange (some [1, 0]) (some [2, 0])))],
      [(.one ⟨.tildeEqual, exVersion [1, 0]⟩, .item (exRange (some [1, 0]) (some [2, 0])))]⟩ := by
    simp only [setHistory, List.foldl_cons, List.foldl_nil, SetCall.run, parseVersionSet, List.find?_nil, p1, convertCall,
      Specifier.toSetCached, Cached.wrap, Cached.pure, h0]
  rw [hc] at h1
  rw [hs]
  unfold parseVersionSet
  rw [List.find?_cons_of_neg (by
    have : ("~=1.0".toList : PyStr) ≠ "~=1.0.0".toList := by decide
    simp [this]), List.find?_nil]
  dsimp only
  rw [p2]
  dsimp only [convertCall]
  cases hr : (Specifier.one ⟨.tildeEqual, exVersion [1, 0, 0]⟩).toSetCached H lim
      [(.one ⟨.tildeEqual, exVersion [1, 0]⟩, .item (exRange (some [1, 0]) (some [2, 0])))] with
  | mk r c' =>
    rw [hr] at h1
    dsimp only at h1
    subst h1
    rfl

example : (exRange (some [1, 0]) (some [2, 0])).Mem (exVersion [1, 5]) ∧ ¬ (exRange (some [1, 0, 0]) (some [1, 1, 0])).Mem (exVersion [1, 5]) := by decide +kernel

end Verif
