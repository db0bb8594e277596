import Verif.Proofs.Pep440
/-!
# C63: strings of segments
-/

namespace Verif

theorem pyInt_intStr (n : Int) : pyInt (intStr n) = .ok n := by
  cases n with
  | ofNat n =>
    rw [show intStr (Int.ofNat n) = natStr n from rfl, pyInt_digits (natStr_digits n), number_natStr]
    rfl
  | negSucc n =>
    have hd := natStr_digits (n + 1)
    show pyInt ('-' :: natStr (n + 1)) = _
    have hs : stripBy intSpace ('-' :: natStr (n + 1)) = '-' :: natStr (n + 1) := by
      have h := digits_strip hd
      unfold stripBy rstripBy at h ⊢
      rw [List.dropWhile_cons_of_neg (by decide), List.reverse_cons]
      have h1 : (natStr (n + 1)).dropWhile intSpace = natStr (n + 1) := by
        have aux : ∀ c ∈ "0123456789".toList, intSpace c = false := by decide
        cases e : natStr (n + 1) with
        | nil => rfl
        | cons c l => rw [List.dropWhile_cons_of_neg (by simp [aux c (digit_mem c (hd.2 c (by rw [e]; simp)))])]
      rw [h1] at h
      have h2 : (natStr (n + 1)).reverse.dropWhile intSpace = (natStr (n + 1)).reverse := by
        simpa using congrArg List.reverse h
      have hne : (natStr (n + 1)).reverse ≠ [] := by simpa using hd.1
      rw [List.dropWhile_append, h2]
      simp [hd.1]
    unfold pyInt
    have e : signAndDigits ('-' :: natStr (n + 1)) = (-1, natStr (n + 1)) := rfl
    simp only [hs, e, digits_no_under hd, List.all_cons, List.all_nil, Bool.and_true, digits_all hd, if_true, List.flatten_cons,
      List.flatten_nil, List.append_nil, fold_number _ hd.2, number_natStr]
    rw [Int.negSucc_eq]
    congr 1
    omega

/-- The string of every epoch is read as the epoch, also if it is negative. -/
theorem C63_epoch (e : Epoch) : Epoch.parse e.toStr = .ok e := by
  unfold Epoch.parse Epoch.toStr
  rw [pyInt_intStr]
  rfl

example : Epoch.parse "12".toList = .ok ⟨12⟩ ∧ (⟨12⟩ : Epoch).toStr = "12".toList := by decide +kernel

/-- `Epoch.parse` accepts what `int` accepts, and fails with a ValueError otherwise. -/
theorem C63_epoch_fails (s : PyStr) (e : PyErr) (h : Epoch.parse s = .error e) : e = .valueError := by
  unfold Epoch.parse pyInt at h
  simp only [bind, Except.bind] at h
  split at h
  · rename_i h'
    split at h'
    · cases h'
    · cases h'; cases h; rfl
  · cases h

example : Epoch.parse (⟨-12⟩ : Epoch).toStr = .ok ⟨-12⟩ ∧ Epoch.parse " +1_0\n".toList = .ok ⟨10⟩ ∧ Epoch.parse "1__0".toList = .error .valueError ∧
    Epoch.parse "".toList = .error .valueError := by decide +kernel

theorem intStr_no_dot (n : Int) : ∀ c ∈ intStr n, decide (c = '.') = false := by
  intro c hc
  rw [decide_eq_false_iff_not]
  rintro rfl
  cases n with
  | ofNat n => exact absurd ((natStr_digits n).2 _ hc) (by decide)
  | negSucc n =>
    rcases List.mem_cons.1 hc with h | h
    · exact absurd h (by decide)
    · exact absurd ((natStr_digits (n + 1)).2 _ h) (by decide)

theorem split_join_dot (a : PyStr) (l : List PyStr) (h : ∀ x ∈ a :: l, ∀ c ∈ x, decide (c = '.') = false) :
    splitDot (join ['.'] (a :: l)) = a :: l := by
  unfold splitDot
  rw [join_cons]
  have e : l.map (['.'] ++ ·) = (l.map (fun x => ('.', x))).map (fun x => x.1 :: x.2) := by
    rw [List.map_map]; rfl
  rw [e, splitAt_parts (· = '.') _ a (h a (by simp))]
  · rw [List.map_map]
    simp [Function.comp_def]
  · intro y hy
    obtain ⟨x, hx, rfl⟩ := List.mem_map.1 hy
    exact ⟨by simp, h x (by simp [hx])⟩

/-- The string of every release is read as the release, also if parts are negative. -/
theorem C63_release (r : Release) (hr : r.Valid) : Release.parse r.toStr = .ok r := by
  obtain ⟨parts⟩ := r
  cases parts with
  | nil => exact absurd rfl hr
  | cons a l =>
    unfold Release.parse Release.toStr
    have h : splitDot (join ['.'] ((a :: l).map intStr)) = (a :: l).map intStr := by
      rw [List.map_cons]
      apply split_join_dot
      intro x hx
      rw [← List.map_cons] at hx
      obtain ⟨n, -, rfl⟩ := List.mem_map.1 hx
      exact intStr_no_dot n
    have h2 : mapAll pyInt ((a :: l).map intStr) = .ok (a :: l) := by
      generalize a :: l = l
      induction l with
      | nil => rfl
      | cons x l ih => rw [List.map_cons, mapAll, pyInt_intStr, ih]; rfl
    show ((mapAll pyInt (splitDot (join ['.'] ((a :: l).map intStr)))).bind Release.create) = _
    rw [h, h2]
    rfl

example : (⟨[1, -2, 0]⟩ : Release).toStr = "1.-2.0".toList ∧ Release.parse "1.-2.0".toList = .ok ⟨[1, -2, 0]⟩ ∧
    Release.parse "1. 2".toList = .ok ⟨[1, 2]⟩ ∧ Release.parse "1..2".toList = .error .valueError := by decide +kernel

theorem valid_letters {cls : TagClass} {t : Tag} (ht : t.Valid cls) :
    (t.phase ≠ [] ∧ ∀ c ∈ t.phase, IsLetter c) ∧ (t.short ≠ [] ∧ ∀ c ∈ t.short, IsLetter c) := by
  have aux : ∀ cls : TagClass, ∀ p ∈ cls.phases.map String.toList, (p ≠ [] ∧ ∀ c ∈ p, IsLetter c) ∧
      ((dictGet Phases.toShort p).getD p ≠ [] ∧ ∀ c ∈ (dictGet Phases.toShort p).getD p, IsLetter c) := by
    intro cls
    cases cls <;> decide +kernel
  exact aux cls _ (valid_mem ht)

theorem create_phase {cls : TagClass} {t : Tag} (ht : t.Valid cls) :
    Tag.create cls t.phase t.value = .ok t ∧ Tag.create cls t.short t.value = .ok t := by
  have aux : ∀ cls : TagClass, ∀ p ∈ cls.phases.map String.toList, Tag.convertPhase p = p ∧ p ∈ cls.phaseSet ∧
      Tag.convertPhase ((dictGet Phases.toShort p).getD p) = p := by
    intro cls
    cases cls <;> decide +kernel
  obtain ⟨h1, h2, h3⟩ := aux cls _ (valid_mem ht)
  obtain ⟨p, n⟩ := t
  simp only [Tag.create, Tag.short] at *
  simp only [h1, h2, h3, if_true, and_self]

/-- The strings of tags, long and short, are read as the tag if the number is not negative. -/
theorem C63_tag (cls : TagClass) (t : Tag) (ht : t.Valid cls) (h : 0 ≤ t.value) :
    Tag.parse cls t.toStr = .ok t ∧ Tag.parse cls t.toShortStr = .ok t := by
  obtain ⟨h1, h2⟩ := valid_letters ht
  obtain ⟨h3, h4⟩ := create_phase ht
  have hd := intStr_digits h
  constructor
  · obtain ⟨m, m1, m2, m3⟩ := fullmatch_tag t.phase (some (['.'], intStr t.value)) h1
      (by rintro _ _ ⟨⟩; exact ⟨Or.inr ⟨'.', rfl, Or.inl rfl⟩, hd⟩)
    have e : t.toStr = t.phase ++ (TagSpelling.mk [] t.phase (some (['.'], intStr t.value))).valueText := by
      simp [Tag.toStr, join_cons, TagSpelling.valueText]
    unfold Tag.parse
    rw [e, m1]
    simp only [m2, m3, Option.map_some, pyInt_digits hd, number_intStr h]
    exact h3
  · obtain ⟨m, m1, m2, m3⟩ := fullmatch_tag t.short (some ([], intStr t.value)) h2
      (by rintro _ _ ⟨⟩; exact ⟨Or.inl rfl, hd⟩)
    have e : t.toShortStr = t.short ++ (TagSpelling.mk [] t.short (some ([], intStr t.value))).valueText := by
      simp [tag_short, TagSpelling.valueText]
    unfold Tag.parse
    rw [e, m1]
    simp only [m2, m3, Option.map_some, pyInt_digits hd, number_intStr h]
    exact h4

example : Tag.parse .pre "candidate.3".toList = .ok ⟨"candidate".toList, 3⟩ ∧ Tag.parse .pre "c3".toList = .ok ⟨"candidate".toList, 3⟩ ∧
    Tag.parse .post "c3".toList = .error .valueError ∧ Tag.parse .pre "alpha.-1".toList = .error .parseTagError := by decide +kernel

/-- The short strings of tags with negative numbers are read as the tag with the opposite number. -/
theorem C63_tag_negative (cls : TagClass) (t : Tag) (ht : t.Valid cls) (h : t.value < 0) :
    Tag.parse cls t.toShortStr = .ok { t with value := -t.value } := by
  obtain ⟨-, h2⟩ := valid_letters ht
  obtain ⟨p, n⟩ := t
  cases n with
  | ofNat n => exact absurd h (by simp)
  | negSucc n =>
    have hd := natStr_digits (n + 1)
    have h4 := (create_phase (t := ⟨p, -Int.negSucc n⟩) ht).2
    obtain ⟨m, m1, m2, m3⟩ := fullmatch_tag (Tag.short ⟨p, Int.negSucc n⟩) (some (['-'], natStr (n + 1))) h2
      (by rintro _ _ ⟨⟩; exact ⟨Or.inr ⟨'-', rfl, Or.inr (Or.inl rfl)⟩, hd⟩)
    have e : (⟨p, Int.negSucc n⟩ : Tag).toShortStr = Tag.short ⟨p, Int.negSucc n⟩ ++
        (TagSpelling.mk [] (Tag.short ⟨p, Int.negSucc n⟩) (some (['-'], natStr (n + 1)))).valueText := by
      simp [tag_short, TagSpelling.valueText, intStr]
    unfold Tag.parse
    rw [e, m1]
    simp only [m2, m3, Option.map_some, pyInt_digits hd, number_natStr]
    exact h4

example : (⟨"alpha".toList, -1⟩ : Tag).toShortStr = "a-1".toList ∧ Tag.parse .pre "a-1".toList = .ok ⟨"alpha".toList, 1⟩ := by decide +kernel

/-- What parts of local segments read from strings look like: numbers are not negative, and other parts neither contain
separators nor are spelled like numbers. -/
def LocalPart.Readable : LocalPart → Prop
  | .int n => 0 ≤ n
  | .str s => (∀ c ∈ s, ¬ IsSep c) ∧ ¬ Digits s

theorem splitAt_clean (p : Char → Bool) (s : PyStr) : splitAt p s ≠ [] ∧ ∀ w ∈ splitAt p s, ∀ c ∈ w, p c = false ∧ c ∈ s := by
  induction s with
  | nil => exact ⟨by simp [splitAt], by simp [splitAt]⟩
  | cons c s ih =>
    obtain ⟨ih1, ih2⟩ := ih
    rw [splitAt]
    cases hc : p c with
    | true =>
      simp only [if_true]
      refine ⟨by simp, ?_⟩
      intro w hw x hx
      rcases List.mem_cons.1 hw with rfl | hw
      · cases hx
      · exact ⟨(ih2 w hw x hx).1, List.mem_cons_of_mem _ (ih2 w hw x hx).2⟩
    | false =>
      cases e : splitAt p s with
      | nil => exact absurd e ih1
      | cons a l =>
        rw [e] at ih2
        simp only [Bool.false_eq_true, if_false]
        refine ⟨by simp, ?_⟩
        intro w hw x hx
        rcases List.mem_cons.1 hw with rfl | hw
        · rcases List.mem_cons.1 hx with rfl | hx
          · exact ⟨hc, by simp⟩
          · exact ⟨(ih2 a (by simp) x hx).1, List.mem_cons_of_mem _ (ih2 a (by simp) x hx).2⟩
        · exact ⟨(ih2 w (by simp [hw]) x hx).1, List.mem_cons_of_mem _ (ih2 w (by simp [hw]) x hx).2⟩

/-- `Local.parse` reads every string (with ASCII digits only: see C102). -/
theorem C63_local_total (s : PyStr) : ∃ l, Local.parse s = .ok l ∧ l.parts ≠ [] ∧ ∀ x ∈ l.parts, x.Readable := by
  unfold Local.parse
  rw [mapAll_map _ partMeaning _ (fun x _ => parse_part x)]
  have hne := (splitAt_clean (· = '.') (s.map (fun c => if c = '-' ∨ c = '_' then '.' else c))).1
  have hcl := (splitAt_clean (· = '.') (s.map (fun c => if c = '-' ∨ c = '_' then '.' else c))).2
  change splitSeparators s ≠ [] at hne
  change ∀ w ∈ splitSeparators s, _ at hcl
  refine ⟨⟨(splitSeparators s).map partMeaning⟩, ?_, by simpa using hne, ?_⟩
  · show Local.create _ = _
    unfold Local.create
    rw [if_neg (by simpa using hne)]
  · intro x hx
    obtain ⟨w, hw, rfl⟩ := List.mem_map.1 hx
    unfold partMeaning
    split
    · exact Int.natCast_nonneg _
    · rename_i hd
      refine ⟨?_, hd⟩
      intro c hc
      obtain ⟨h1, h2⟩ := hcl w hw c hc
      obtain ⟨d, -, h3⟩ := List.mem_map.1 h2
      simp only [decide_eq_false_iff_not] at h1
      rintro (rfl | rfl | rfl)
      · exact h1 rfl
      · split at h3
        · exact absurd h3 (by decide)
        · rename_i hn; exact hn (Or.inl h3)
      · split at h3
        · exact absurd h3 (by decide)
        · rename_i hn; exact hn (Or.inr h3)

example : Local.parse "ubuntu-01_x".toList = .ok ⟨[.str "ubuntu".toList, .int 1, .str "x".toList]⟩ ∧ Local.parse "".toList = .ok ⟨[.str []]⟩ := by
  decide +kernel

/-- The string of a local segment is read as the segment exactly if its parts are such as can be read. -/
theorem C63_local (l : Local) (hl : l.parts ≠ []) : Local.parse l.toStr = .ok l ↔ ∀ x ∈ l.parts, x.Readable := by
  constructor
  · intro h
    obtain ⟨l', h1, -, h3⟩ := C63_local_total l.toStr
    rw [h] at h1
    cases h1
    exact h3
  · intro h
    have hs : ∀ x ∈ l.parts.map LocalPart.toStr, ∀ c ∈ x, ¬ IsSep c := by
      intro x hx
      obtain ⟨y, hy, rfl⟩ := List.mem_map.1 hx
      have hy := h y hy
      cases y with
      | int n =>
        intro c hc
        have aux : ∀ c ∈ "0123456789".toList, ¬ IsSep c := by decide
        exact aux c (digit_mem c ((intStr_digits hy).2 c hc))
      | str s => exact hy.1
    have hm : ∀ x ∈ l.parts, partMeaning x.toStr = x := by
      intro x hx
      have hx := h x hx
      cases x with
      | int n =>
        show (if Digits (intStr n) then LocalPart.int (number (intStr n)) else _) = _
        rw [if_pos (intStr_digits hx), number_intStr hx]
      | str s =>
        show (if Digits s then LocalPart.int (number s) else _) = _
        rw [if_neg hx.2]
        rfl
    have hk : ∀ s : PyStr, (∀ c ∈ s, c ≠ '-' ∧ c ≠ '_') → s.map (fun c => if c = '-' ∨ c = '_' then '.' else c) = s := by
      intro s hs
      conv_rhs => rw [← List.map_id s]
      apply List.map_congr_left
      intro c hc
      rw [if_neg]
      · rfl
      · rintro (e | e)
        · exact (hs c hc).1 e
        · exact (hs c hc).2 e
    have e : splitSeparators l.toStr = l.parts.map LocalPart.toStr := by
      unfold splitSeparators
      rw [hk]
      · unfold Local.toStr
        cases e : l.parts.map LocalPart.toStr with
        | nil => exact absurd (List.map_eq_nil_iff.1 e) hl
        | cons a m =>
          rw [e] at hs
          apply split_join_dot
          intro x hx c hc
          rw [decide_eq_false_iff_not]
          intro e
          exact hs x hx c hc (Or.inl e)
      · intro c hc
        unfold Local.toStr at hc
        cases e : l.parts.map LocalPart.toStr with
        | nil => exact absurd (List.map_eq_nil_iff.1 e) hl
        | cons a m =>
          rw [e] at hs hc
          rw [join_cons] at hc
          have : c = '.' ∨ ∃ x ∈ a :: m, c ∈ x := by
            rcases List.mem_append.1 hc with h | h
            · exact Or.inr ⟨a, by simp, h⟩
            · obtain ⟨y, hy, hc⟩ := List.mem_flatten.1 h
              obtain ⟨x, hx, rfl⟩ := List.mem_map.1 hy
              rcases List.mem_append.1 hc with h | h
              · exact Or.inl (by simpa using h)
              · exact Or.inr ⟨x, by simp [hx], h⟩
          rcases this with rfl | ⟨x, hx, hc⟩
          · decide
          · exact ⟨fun e => hs x hx c hc (Or.inr (Or.inl e)), fun e => hs x hx c hc (Or.inr (Or.inr e))⟩
    unfold Local.parse
    rw [e, mapAll_map _ partMeaning _ (fun x _ => parse_part x), List.map_map]
    have e2 : l.parts.map (partMeaning ∘ LocalPart.toStr) = l.parts := by
      conv_rhs => rw [← List.map_id l.parts]
      exact List.map_congr_left hm
    rw [e2]
    show Local.create _ = _
    unfold Local.create
    rw [if_neg (by simpa using hl)]

example : Local.parse "ubuntu-20_04.A".toList = .ok ⟨[.str "ubuntu".toList, .int 20, .int 4, .str "A".toList]⟩ ∧
    Local.parse "".toList = .ok ⟨[.str []]⟩ ∧ Local.parse (⟨[.str "7".toList]⟩ : Local).toStr = .ok ⟨[.int 7]⟩ ∧
    Local.parse (⟨[.int (-7)]⟩ : Local).toStr = .ok ⟨[.str [], .int 7]⟩ := by decide +kernel

end Verif
