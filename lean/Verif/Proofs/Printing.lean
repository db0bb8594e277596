import Verif.Proofs.Parsing
/-!
# The strings of versions are spellings of them
-/

namespace Verif

/-! ### numbers -/

theorem number_snoc (s : PyStr) (c : Char) : number (s ++ [c]) = 10 * number s + (c.toNat - 48) := by
  unfold number
  rw [List.foldl_append]
  rfl

theorem digitChar_ok : ∀ d < 10, (Nat.digitChar d).toNat - 48 = d ∧ IsDigit (Nat.digitChar d) := by decide

theorem decimalRev_ok : ∀ (fuel n : Nat), n < fuel →
    number (decimalRev fuel n).reverse = n ∧ (decimalRev fuel n ≠ []) ∧ ∀ c ∈ decimalRev fuel n, IsDigit c := by
  intro fuel
  induction fuel with
  | zero => intro n h; omega
  | succ fuel ih =>
    intro n h
    obtain ⟨h1, h2⟩ := digitChar_ok (n % 10) (Nat.mod_lt _ (by decide))
    unfold decimalRev
    by_cases h0 : n / 10 = 0
    · rw [if_pos h0]
      refine ⟨?_, by simp, by simpa using h2⟩
      rw [List.reverse_singleton, ← List.nil_append [_], number_snoc, h1]
      have : number [] = 0 := rfl
      omega
    · rw [if_neg h0]
      obtain ⟨h3, h4, h5⟩ := ih (n / 10) (by omega)
      refine ⟨?_, by simp, ?_⟩
      · rw [List.reverse_cons, number_snoc, h1, h3]
        omega
      · intro c hc
        rcases List.mem_cons.1 hc with rfl | hc
        · exact h2
        · exact h5 c hc

theorem natStr_digits (n : Nat) : Digits (natStr n) := by
  obtain ⟨-, h1, h2⟩ := decimalRev_ok (n + 1) n (by omega)
  unfold natStr
  exact ⟨by simpa using h1, by simpa using h2⟩

theorem number_natStr (n : Nat) : number (natStr n) = n := (decimalRev_ok (n + 1) n (by omega)).1

theorem intStr_nonneg {n : Int} (h : 0 ≤ n) : intStr n = natStr n.toNat := by
  cases n with
  | ofNat n => rfl
  | negSucc n => omega

theorem intStr_digits {n : Int} (h : 0 ≤ n) : Digits (intStr n) := intStr_nonneg h ▸ natStr_digits _

theorem number_intStr {n : Int} (h : 0 ≤ n) : (number (intStr n) : Int) = n := by
  rw [intStr_nonneg h, number_natStr]
  omega

/-! ### joining -/

theorem join_nil (l : List PyStr) : join [] l = l.flatten := by
  unfold join
  induction l with
  | nil => rfl
  | cons a l ih =>
    cases l with
    | nil => simp
    | cons b l =>
      rw [List.intercalate_cons_cons, ih]
      simp

theorem join_cons (sep a : PyStr) (l : List PyStr) : join sep (a :: l) = a ++ (l.map (sep ++ ·)).flatten := by
  unfold join
  induction l generalizing a with
  | nil => simp
  | cons b l ih => rw [List.intercalate_cons_cons, ih, List.map_cons, List.flatten_cons, List.append_assoc, List.append_assoc]

/-! ### canonical spellings -/

/-- A tag in a string or a short string. -/
def longTag (t : Tag) : TagSpelling := ⟨['-'], t.phase, some (['.'], intStr t.value)⟩
def shortTag (sep : PyStr) (t : Tag) : TagSpelling := ⟨sep, t.short, some ([], intStr t.value)⟩

def localSpelling (l : Local) : PyStr × List (Char × PyStr) := match l.parts with
  | [] => ([], [])
  | x :: xs => (x.toStr, xs.map (fun y => ('.', y.toStr)))

/-- The spelling of a version with given spellings of the tags. -/
def canonicalSpelling (pre post dev : Tag → TagSpelling) (v : Version) : Spelling where
  v := []
  epoch := if v.epoch.value = 0 then none else some (intStr v.epoch.value)
  major := intStr (v.release.parts.headD 0)
  release := v.release.parts.tail.map intStr
  pre := v.pre.map pre
  post := v.post.map (fun t => .tag (post t))
  dev := v.dev.map dev
  local_ := v.local_.map localSpelling

def longSpelling : Version → Spelling := canonicalSpelling longTag longTag longTag
def shortSpelling : Version → Spelling := canonicalSpelling (shortTag []) (shortTag ['.']) (shortTag ['.'])

theorem text_canonical (pre post dev : Tag → TagSpelling) {v : Version} (hv : v.Valid) :
    (canonicalSpelling pre post dev v).text =
      (if v.epoch.value = 0 then [] else intStr v.epoch.value ++ ['!']) ++ v.release.toStr ++ (v.pre.map (fun t => (pre t).text)).getD []
        ++ (v.post.map (fun t => (post t).text)).getD [] ++ (v.dev.map (fun t => (dev t).text)).getD []
        ++ (v.local_.map (fun l => '+' :: l.toStr)).getD [] := by
  obtain ⟨⟨e⟩, ⟨r⟩, a, b, c, l⟩ := v
  have hr : r ≠ [] := hv.release
  have hl := hv.local_
  dsimp only at hl
  unfold canonicalSpelling Spelling.text
  dsimp only
  rw [List.nil_append]
  congr 1
  · congr 1
    · congr 1
      · congr 1
        · congr 1
          · by_cases h : e = 0 <;> simp [h, Spelling.epochText, Spelling.optText]
          · cases r with
            | nil => exact absurd rfl hr
            | cons x r =>
              unfold Release.toStr Spelling.releaseText
              rw [List.map_cons, join_cons, List.map_map, List.tail_cons, List.map_map]
              rfl
        · cases a <;> rfl
      · cases b <;> rfl
    · cases c <;> rfl
  · cases l with
    | none => rfl
    | some l =>
      obtain ⟨l⟩ := l
      have hl := hl _ rfl
      cases l with
      | nil => exact absurd rfl hl
      | cons x l =>
        simp only [Option.map_some, Option.getD_some, Spelling.localText, Spelling.optText, Spelling.localBody, localSpelling, Local.toStr,
          List.map_cons, join_cons, List.map_map]
        rfl

theorem text_long {v : Version} (hv : v.Valid) : v.toStr = (longSpelling v).text := by
  unfold longSpelling
  rw [text_canonical _ _ _ hv]
  have ht : ∀ t : Tag, (longTag t).text = '-' :: t.toStr := by
    intro t
    simp [longTag, TagSpelling.text, TagSpelling.body, TagSpelling.valueText, Tag.toStr, join, List.intercalate]
  obtain ⟨⟨e⟩, r, a, b, c, l⟩ := v
  unfold Version.toStr
  rw [join_nil]
  simp only [ht, List.flatten_append]
  congr 1
  · congr 1
    · congr 1
      · congr 1
        · congr 1
          · by_cases h : e = 0 <;> simp [h, Version.epochPart, Epoch.truthy, Epoch.toStr]
          · simp
        · cases a <;> simp [Version.part]
      · cases b <;> simp [Version.part]
    · cases c <;> simp [Version.part]
  · cases l <;> simp [Version.part]

theorem text_short {v : Version} (hv : v.Valid) : v.toShortStr = (shortSpelling v).text := by
  unfold shortSpelling
  rw [text_canonical _ _ _ hv]
  have ht : ∀ sep (t : Tag), (shortTag sep t).text = sep ++ t.toShortStr := by
    intro sep t
    simp [shortTag, TagSpelling.text, TagSpelling.body, TagSpelling.valueText, Tag.toShortStr, join_nil]
  obtain ⟨⟨e⟩, r, a, b, c, l⟩ := v
  unfold Version.toShortStr
  rw [join_nil]
  simp only [ht, List.flatten_append]
  congr 1
  · congr 1
    · congr 1
      · congr 1
        · congr 1
          · by_cases h : e = 0 <;> simp [h, Version.epochPart, Epoch.truthy, Epoch.toStr]
          · simp
        · cases a <;> simp [Version.part]
      · cases b <;> simp [Version.part]
    · cases c <;> simp [Version.part]
  · cases l <;> simp [Version.part]

/-! ### they are spellings of the version -/

/-- `s` is a good spelling of the tag. -/
structure GoodTag (cls : TagClass) (s : TagSpelling) (t : Tag) : Prop where
  wf : s.WF (wordsOf cls)
  of : Spelling.TagOf s t
  value : s.value ≠ none

theorem good_short {cls : TagClass} {t : Tag} (ht : t.Valid cls) (h : 0 ≤ t.value) {sep : PyStr} (hs : OptSep sep) :
    GoodTag cls (shortTag sep t) t := by
  have hp : t.short.map foldCase ∈ wordsOf cls ∧ (t.short, t.phase) ∈ Spelling.phaseMeaning := by
    obtain ⟨p, hp, e⟩ := ht
    have : ∀ cls, ∀ p ∈ TagClass.phases cls, ((dictGet Phases.toShort p.toList).getD p.toList).map foldCase ∈ wordsOf cls ∧
        ((dictGet Phases.toShort p.toList).getD p.toList, p.toList) ∈ Spelling.phaseMeaning := by
      intro cls
      cases cls <;> decide
    unfold Tag.short
    rw [e]
    exact this cls p hp
  refine ⟨⟨hs, hp.1, ?_⟩, ⟨hp.2, ?_⟩, by simp [shortTag]⟩
  · rintro _ _ ⟨⟩
    exact ⟨.inl rfl, intStr_digits h⟩
  · simp only [shortTag, TagSpelling.num]
    exact (number_intStr h).symm

theorem good_long {cls : TagClass} {t : Tag} (ht : t.Valid cls) (h : 0 ≤ t.value) (hc : t.phase ≠ "candidate".toList) :
    GoodTag cls (longTag t) t := by
  have hp : t.phase.map foldCase ∈ wordsOf cls ∧ (t.phase, t.phase) ∈ Spelling.phaseMeaning := by
    obtain ⟨p, hp, e⟩ := ht
    have : ∀ cls, ∀ p ∈ TagClass.phases cls, p.toList ≠ "candidate".toList → p.toList.map foldCase ∈ wordsOf cls ∧
        (p.toList, p.toList) ∈ Spelling.phaseMeaning := by
      intro cls
      cases cls <;> decide
    rw [e] at hc ⊢
    exact this cls p hp hc
  refine ⟨⟨.inr ⟨'-', rfl, by decide⟩, hp.1, ?_⟩, ⟨hp.2, ?_⟩, by simp [longTag]⟩
  · rintro _ _ ⟨⟩
    exact ⟨.inr ⟨'.', rfl, by decide⟩, intStr_digits h⟩
  · simp only [longTag, TagSpelling.num]
    exact (number_intStr h).symm

theorem good_part {x : LocalPart} (h : x.Canonical) : AlphaNum x.toStr ∧ Spelling.PartOf x.toStr x := by
  cases x with
  | int n =>
    have hd := intStr_digits h
    refine ⟨⟨hd.1, fun c hc => .inr (hd.2 c hc)⟩, .inl ⟨hd, ?_⟩⟩
    simp only [LocalPart.toStr, number_intStr (show 0 ≤ n from h)]
  | str s => exact ⟨h.1, .inr ⟨h.2, rfl⟩⟩

theorem good_canonical {pre post dev : Tag → TagSpelling} {v : Version} (hv : v.Canonical)
    (h1 : ∀ t, v.pre = some t → GoodTag .pre (pre t) t) (h2 : ∀ t, v.post = some t → GoodTag .post (post t) t)
    (h3 : ∀ t, v.dev = some t → GoodTag .dev (dev t) t) :
    (canonicalSpelling pre post dev v).WF ∧ (canonicalSpelling pre post dev v).Greedy ∧ (canonicalSpelling pre post dev v).Of v := by
  obtain ⟨⟨e⟩, ⟨r⟩, a, b, c, l⟩ := v
  obtain ⟨hval, he, hr, -, -, -, hl⟩ := hv
  have hne : r ≠ [] := hval.release
  have hlne := hval.local_
  dsimp only at *
  cases r with
  | nil => exact absurd rfl hne
  | cons x r =>
  have hx : 0 ≤ x := hr x (by simp)
  have hr' : ∀ y ∈ r, 0 ≤ y := fun y hy => hr y (by simp [hy])
  refine ⟨?_, ?_, ?_⟩
  · constructor
    · exact .inl rfl
    · intro d hd
      simp only [canonicalSpelling] at hd
      split at hd
      · cases hd
      · cases hd
        exact intStr_digits he
    · exact intStr_digits hx
    · intro d hd
      simp only [canonicalSpelling, List.tail_cons, List.mem_map] at hd
      obtain ⟨y, hy, rfl⟩ := hd
      exact intStr_digits (hr' y hy)
    · intro t ht
      cases a with
      | none => cases ht
      | some a => cases ht; exact (h1 a rfl).wf
    · intro t ht
      cases b with
      | none => cases ht
      | some a => cases ht; exact (h2 a rfl).wf
    · intro t ht
      cases c with
      | none => cases ht
      | some a => cases ht; exact (h3 a rfl).wf
    · intro q hq
      cases l with
      | none => cases hq
      | some l =>
        cases hq
        obtain ⟨l⟩ := l
        have hl := hl _ rfl
        have hlne := hlne _ rfl
        dsimp only at hl hlne
        cases l with
        | nil => exact absurd rfl hlne
        | cons y l =>
          refine ⟨(good_part (hl y (by simp))).1, ?_⟩
          intro z hz
          simp only [localSpelling, List.mem_map] at hz
          obtain ⟨w, hw, rfl⟩ := hz
          exact ⟨.inl rfl, (good_part (hl w (by simp [hw]))).1⟩
  · intro t d ht hd
    cases b with
    | none => cases hd
    | some b => cases hd
  · constructor
    · simp only [canonicalSpelling]
      split
      · next h => simp [h]
      · simp [number_intStr he]
    · simp only [canonicalSpelling, List.tail_cons, List.headD_cons, List.map_cons, List.map_map, List.cons.injEq]
      refine ⟨(number_intStr hx).symm, ?_⟩
      conv_lhs => rw [← List.map_id r]
      apply List.map_congr_left
      intro y hy
      exact (number_intStr (hr' y hy)).symm
    · cases a with
      | none => trivial
      | some a => exact (h1 a rfl).of
    · cases b with
      | none => trivial
      | some a => exact (h2 a rfl).of
    · cases c with
      | none => trivial
      | some a => exact (h3 a rfl).of
    · cases l with
      | none => trivial
      | some l =>
        obtain ⟨l⟩ := l
        have hl := hl _ rfl
        have hlne := hlne _ rfl
        dsimp only at hl hlne
        cases l with
        | nil => exact absurd rfl hlne
        | cons y l =>
          simp only [canonicalSpelling, Option.map_some, Spelling.OptOf, Spelling.LocalOf, localSpelling, List.map_map]
          refine .cons (good_part (hl y (by simp))).2 ?_
          have key : ∀ l : List LocalPart, (∀ z ∈ l, z.Canonical) →
              List.Forall₂ Spelling.PartOf (l.map ((fun x => x.2) ∘ fun y => ('.', y.toStr))) l := by
            intro l hl
            induction l with
            | nil => exact .nil
            | cons z l ih => exact .cons (good_part (hl z (by simp))).2 (ih (fun w hw => hl w (by simp [hw])))
          exact key l (fun z hz => hl z (by simp [hz]))

theorem good_shortSpelling {v : Version} (hv : v.Canonical) : (shortSpelling v).WF ∧ (shortSpelling v).Greedy ∧ (shortSpelling v).Of v :=
  good_canonical hv (fun t ht => good_short (hv.valid.pre t ht) (hv.pre t ht) (.inl rfl))
    (fun t ht => good_short (hv.valid.post t ht) (hv.post t ht) (.inr ⟨'.', rfl, by decide⟩))
    (fun t ht => good_short (hv.valid.dev t ht) (hv.dev t ht) (.inr ⟨'.', rfl, by decide⟩))

theorem not_candidate {cls : TagClass} {t : Tag} (h : t.Valid cls) (hc : cls ≠ .pre) : t.phase ≠ "candidate".toList := by
  obtain ⟨p, hp, e⟩ := h
  have : ∀ cls, cls ≠ TagClass.pre → ∀ p ∈ TagClass.phases cls, p.toList ≠ "candidate".toList := by
    intro cls
    cases cls <;> decide
  exact e ▸ this cls hc p hp

theorem good_longSpelling {v : Version} (hv : v.Canonical) (hc : ∀ t, v.pre = some t → t.phase ≠ "candidate".toList) :
    (longSpelling v).WF ∧ (longSpelling v).Greedy ∧ (longSpelling v).Of v :=
  good_canonical hv (fun t ht => good_long (hv.valid.pre t ht) (hv.pre t ht) (hc t ht))
    (fun t ht => good_long (hv.valid.post t ht) (hv.post t ht) (not_candidate (hv.valid.post t ht) (by decide)))
    (fun t ht => good_long (hv.valid.dev t ht) (hv.dev t ht) (not_candidate (hv.valid.dev t ht) (by decide)))

theorem parse_short {v : Version} (hv : v.Canonical) : Version.parse v.toShortStr = .ok v := by
  obtain ⟨h1, h2, h3⟩ := good_shortSpelling hv
  exact (parse_ok_iff _ _).2 ⟨_, h1, h2, text_short hv.valid, h3⟩

theorem parse_long {v : Version} (hv : v.Canonical) (hc : ∀ t, v.pre = some t → t.phase ≠ "candidate".toList) :
    Version.parse v.toStr = .ok v := by
  obtain ⟨h1, h2, h3⟩ := good_longSpelling hv hc
  exact (parse_ok_iff _ _).2 ⟨_, h1, h2, text_long hv.valid, h3⟩

/-- Up to the local segment, no spelling has the letter n. -/
theorem no_n {p : Spelling} (hp : p.WF) : 'n' ∉ p.text.takeWhile (fun c => decide (c ≠ '+')) := by
  intro h
  let q : Spelling := { p with local_ := none }
  have hq : q.WF := ⟨hp.v, hp.epoch, hp.major, hp.release, hp.pre, hp.post, hp.dev, by intro l hl; cases hl⟩
  have e : p.text = q.text ++ Spelling.localText p.local_ := by
    simp [Spelling.text, q, Spelling.localText, Spelling.optText]
  obtain ⟨c, hm⟩ := (public_iff q.text).2 ⟨q, hq, rfl, rfl⟩
  have hn : 'n' ∈ q.text := by
    rw [e, List.takeWhile_append] at h
    split at h
    · have : (Spelling.localText p.local_).takeWhile (fun c => decide (c ≠ '+')) = [] := by
        rcases local_start p.local_ with h | ⟨c, r', h, hc⟩
        · rw [h]; rfl
        · cases hl : p.local_ with
          | none => rfl
          | some l => simp [Spelling.localText, Spelling.optText]
      rw [this, List.append_nil] at h
      exact h
    · exact (List.takeWhile_prefix _).subset h
  exact absurd (Re.allows_of_mem _ _ _ hm 'n' hn) (by decide)

theorem candidate_n {v : Version} (hv : v.Canonical) {t : Tag} (ht : v.pre = some t) (hc : t.phase = "candidate".toList) :
    'n' ∈ v.toStr.takeWhile (fun c => decide (c ≠ '+')) := by
  rw [text_long hv.valid]
  unfold longSpelling
  rw [text_canonical _ _ _ hv.valid, ht]
  have nd : ∀ d, Digits d → ∀ c ∈ d, decide (c ≠ '+') = true := by
    rintro d hd c hc
    rw [decide_eq_true_iff]
    rintro rfl
    exact absurd (hd.2 _ hc) (by decide)
  have h1 : ∀ c ∈ (if v.epoch.value = 0 then [] else intStr v.epoch.value ++ ['!']), decide (c ≠ '+') = true := by
    intro c hc
    split at hc
    · cases hc
    · rcases List.mem_append.1 hc with hc | hc
      · exact nd _ (intStr_digits hv.epoch) c hc
      · rw [List.mem_singleton] at hc
        subst hc
        decide
  have h2 : ∀ c ∈ v.release.toStr, decide (c ≠ '+') = true := by
    have hr := hv.release
    unfold Release.NonNeg at hr
    unfold Release.toStr
    cases hp : v.release.parts with
    | nil => exact absurd hp hv.valid.release
    | cons x r =>
      rw [hp] at hr
      intro c hc
      rw [List.map_cons, join_cons, List.mem_append] at hc
      rcases hc with hc | hc
      · exact nd _ (intStr_digits (hr x (by simp))) c hc
      · simp only [List.map_map, List.mem_flatten, List.mem_map] at hc
        obtain ⟨_, ⟨y, hy, rfl⟩, hc⟩ := hc
        simp only [Function.comp, List.cons_append, List.nil_append, List.mem_cons] at hc
        rcases hc with rfl | hc
        · decide
        · exact nd _ (intStr_digits (hr y (by simp [hy]))) c hc
  have h3 : (longTag t).text = "-candidate".toList ++ ('.' :: intStr t.value) := by
    unfold longTag TagSpelling.text TagSpelling.body TagSpelling.valueText
    rw [hc]
    rfl
  simp only [Option.map_some, Option.getD_some, h3, List.append_assoc]
  rw [List.takeWhile_append_of_pos h1, List.takeWhile_append_of_pos h2, List.takeWhile_append_of_pos (by decide)]
  simp

theorem parse_candidate {v : Version} (hv : v.Canonical) {t : Tag} (ht : v.pre = some t) (hc : t.phase = "candidate".toList) :
    Version.parse v.toStr = .error .parseVersionError := by
  rw [parse_no_spelling]
  rintro ⟨p, hp, e⟩
  apply no_n hp
  rw [← e]
  exact candidate_n hv ht hc

/-! ### everything parsed is canonical -/

theorem canonical_of {p : Spelling} (hp : p.WF) {v : Version} (h : p.Of v) : v.Canonical := by
  have tag : ∀ (cls : TagClass) (s : TagSpelling) (t : Tag), s.WF (wordsOf cls) → Spelling.TagOf s t → t.Valid cls ∧ 0 ≤ t.value := by
    intro cls s t hs ht
    obtain ⟨h1, h2, -⟩ := tag_create_ok_valid ((tagMeaning_ok hs t).2 ht)
    exact ⟨h1, by omega⟩
  have post : ∀ (s : PostSpelling) (t : Tag), s.WF postWords → Spelling.PostOf s t → t.Valid .post ∧ 0 ≤ t.value := by
    intro s t hs ht
    cases s with
    | implicit d =>
      simp only [Spelling.PostOf] at ht
      subst ht
      exact ⟨⟨"post", by decide, rfl⟩, by simp⟩
    | tag s => exact tag .post s t hs ht
  have opt : ∀ {α β : Type} {r : α → β → Prop} {a : Option α} {b : Option β} {x : β}, Spelling.OptOf r a b → b = some x → ∃ y, a = some y ∧ r y x := by
    intro α β r a b x h e
    subst e
    cases a with
    | none => exact h.elim
    | some y => exact ⟨y, rfl, h⟩
  have hpre : ∀ t, v.pre = some t → t.Valid .pre ∧ 0 ≤ t.value := by
    intro t ht
    obtain ⟨s, hs, hr⟩ := opt h.pre ht
    exact tag .pre s t (hp.pre s hs) hr
  have hpost : ∀ t, v.post = some t → t.Valid .post ∧ 0 ≤ t.value := by
    intro t ht
    obtain ⟨s, hs, hr⟩ := opt h.post ht
    exact post s t (hp.post s hs) hr
  have hdev : ∀ t, v.dev = some t → t.Valid .dev ∧ 0 ≤ t.value := by
    intro t ht
    obtain ⟨s, hs, hr⟩ := opt h.dev ht
    exact tag .dev s t (hp.dev s hs) hr
  have hloc : ∀ l, v.local_ = some l → l.parts ≠ [] ∧ ∀ q ∈ l.parts, q.Canonical := by
    intro l hl
    obtain ⟨s, hs, hr⟩ := opt h.local_ hl
    obtain ⟨h1, h2⟩ := hp.local_ s hs
    have hall : ∀ x ∈ s.1 :: s.2.map (·.2), AlphaNum x := by
      intro x hx
      rcases List.mem_cons.1 hx with rfl | hx
      · exact h1
      · obtain ⟨y, hy, rfl⟩ := List.mem_map.1 hx
        exact (h2 y hy).2
    have key : ∀ (a : List PyStr) (b : List LocalPart), List.Forall₂ Spelling.PartOf a b → (∀ x ∈ a, AlphaNum x) → ∀ q ∈ b, q.Canonical := by
      intro a b hab
      induction hab with
      | nil => intro _ q hq; cases hq
      | cons hxy _ ih =>
        intro ha q hq
        rcases List.mem_cons.1 hq with rfl | hq
        · rcases hxy with ⟨-, rfl⟩ | ⟨hd, rfl⟩
          · exact Int.natCast_nonneg _
          · exact ⟨ha _ (by simp), hd⟩
        · exact ih (fun x hx => ha x (by simp [hx])) q hq
    refine ⟨?_, key _ _ hr hall⟩
    intro e
    unfold Spelling.LocalOf at hr
    rw [e] at hr
    cases hr
  exact {
    valid := {
      release := by rw [h.release]; simp
      pre := fun t ht => (hpre t ht).1
      post := fun t ht => (hpost t ht).1
      dev := fun t ht => (hdev t ht).1
      local_ := fun l hl => (hloc l hl).1 }
    epoch := by rw [h.epoch]; exact Int.natCast_nonneg _
    release := by
      intro x hx
      rw [h.release, List.mem_map] at hx
      obtain ⟨d, -, rfl⟩ := hx
      exact Int.natCast_nonneg _
    pre := fun t ht => (hpre t ht).2
    post := fun t ht => (hpost t ht).2
    dev := fun t ht => (hdev t ht).2
    local_ := fun l hl => (hloc l hl).2 }

theorem parse_canonical {s : PyStr} {v : Version} (h : Version.parse s = .ok v) : v.Canonical := by
  obtain ⟨p, hp, -, -, hv⟩ := (parse_ok_iff s v).1 h
  exact canonical_of hp hv

/-- A spelling starts with a digit, after the v. -/
theorem text_head {p : Spelling} (hp : p.WF) (hv : p.v = []) : ∃ c r, p.text = c :: r ∧ IsDigit c := by
  have hd : ∀ d, Digits d → ∃ c r, d = c :: r ∧ IsDigit c := by
    intro d hd
    cases d with
    | nil => exact absurd rfl hd.1
    | cons c r => exact ⟨c, r, rfl, hd.2 c (by simp)⟩
  unfold Spelling.text
  rw [hv]
  cases he : p.epoch with
  | none =>
    obtain ⟨c, r, e, hc⟩ := hd _ hp.major
    exact ⟨c, _, by simp [Spelling.epochText, Spelling.optText, Spelling.releaseText, e]; rfl, hc⟩
  | some d =>
    obtain ⟨c, r, e, hc⟩ := hd d (hp.epoch d he)
    exact ⟨c, _, by simp [Spelling.epochText, Spelling.optText, e]; rfl, hc⟩

/-- A leading v changes nothing. -/
theorem parse_v {s : PyStr} {c : Char} (hc : c = 'v' ∨ c = 'V') (hs : ∀ r, s ≠ 'v' :: r ∧ s ≠ 'V' :: r) :
    Version.parse (c :: s) = Version.parse s := by
  have nd : ∀ x, x = 'v' ∨ x = 'V' → ¬ IsDigit x := by
    rintro x (rfl | rfl) <;> decide
  by_cases h : ∃ p : Spelling, p.WF ∧ s = p.text
  · obtain ⟨p, hp, gp, rfl⟩ := spelling_greedy.1 h
    have hv : p.v = [] := by
      rcases hp.v with h | h | h
      · exact h
      · exact absurd (by simp [Spelling.text, h]; rfl) (hs _).1
      · exact absurd (by simp [Spelling.text, h]; rfl) (hs _).2
    let q : Spelling := { p with v := [c] }
    have hq : q.WF := ⟨by rcases hc with rfl | rfl <;> simp [q], hp.epoch, hp.major, hp.release, hp.pre, hp.post, hp.dev, hp.local_⟩
    have e : c :: p.text = q.text := by simp [Spelling.text, q, hv]
    rw [e, parse_text hq gp, parse_text hp gp]
    rfl
  · rw [(parse_no_spelling s).2 h, parse_no_spelling]
    rintro ⟨p, hp, e⟩
    apply h
    have hv : p.v = [c] := by
      have : p.v ≠ [] := by
        intro hv
        obtain ⟨d, r, e', hd⟩ := text_head hp hv
        rw [e'] at e
        cases e
        exact nd c hc hd
      rcases hp.v with h | h | h
      · exact absurd h this
      · simp only [Spelling.text, h, List.cons_append, List.cons.injEq] at e
        rw [h, e.1]
      · simp only [Spelling.text, h, List.cons_append, List.cons.injEq] at e
        rw [h, e.1]
    refine ⟨{ p with v := [] }, ⟨.inl rfl, hp.epoch, hp.major, hp.release, hp.pre, hp.post, hp.dev, hp.local_⟩, ?_⟩
    simp only [Spelling.text, hv, List.cons_append, List.cons.injEq] at e
    exact e.2

end Verif
