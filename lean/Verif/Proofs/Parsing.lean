import Verif.Proofs.SpellingUnique
import Verif.Proofs.Version
/-!
# Parsing versions
-/

namespace Verif

open Re

theorem splitAt_append (p : Char → Bool) (a : PyStr) (c : Char) (b : PyStr) (ha : ∀ x ∈ a, p x = false) (hc : p c = true) :
    splitAt p (a ++ c :: b) = a :: splitAt p b := by
  induction a with
  | nil => simp [splitAt, hc]
  | cons x a ih =>
    have hx := ha x (by simp)
    rw [List.cons_append, splitAt, ih (fun y hy => ha y (List.mem_cons_of_mem _ hy))]
    simp [hx]

theorem splitAt_single (p : Char → Bool) (a : PyStr) (ha : ∀ x ∈ a, p x = false) : splitAt p a = [a] := by
  induction a with
  | nil => rfl
  | cons x a ih =>
    have hx := ha x (by simp)
    rw [splitAt, ih (fun y hy => ha y (List.mem_cons_of_mem _ hy))]
    simp [hx]

theorem digits_strip {d : PyStr} (hd : Digits d) : stripBy intSpace d = d := by
  have key : ∀ l : PyStr, (∀ c ∈ l, IsDigit c) → l.dropWhile intSpace = l := by
    intro l hl
    cases l with
    | nil => rfl
    | cons c l =>
      have aux : ∀ c ∈ "0123456789".toList, intSpace c = false := by decide
      rw [List.dropWhile_cons_of_neg (by simp [aux c (digit_mem c (hl c (by simp)))])]
  unfold stripBy rstripBy
  rw [key d hd.2, key _ (by simpa using hd.2), List.reverse_reverse]

theorem digits_all {d : PyStr} (hd : Digits d) : (!d.isEmpty && d.all isDecimal) = true := by
  have hall : d.all isDecimal = true := by
    rw [List.all_eq_true]
    intro c hc
    rw [isDecimal_iff]
    exact hd.2 c hc
  have hne : d.isEmpty = false := by simp [hd.1]
  rw [hall, hne]
  rfl

theorem fold_number (l : PyStr) (hl : ∀ c ∈ l, IsDigit c) : l.foldl (fun (n : Int) c => 10 * n + ((c.toNat : Int) - 48)) 0 = (number l : Int) := by
  have key : ∀ (l : PyStr) (n : Nat), (∀ c ∈ l, IsDigit c) →
      l.foldl (fun (n : Int) c => 10 * n + ((c.toNat : Int) - 48)) (n : Int) = ((l.foldl (fun n c => 10 * n + (c.toNat - 48)) n : Nat) : Int) := by
    intro l
    induction l with
    | nil => intros; rfl
    | cons c l ih =>
      intro n hl
      have hc : 48 ≤ c.toNat := (hl c (by simp)).1
      rw [List.foldl_cons, List.foldl_cons, ← ih _ (fun x hx => hl x (List.mem_cons_of_mem _ hx))]
      congr 1
      omega
  exact key l 0 hl

theorem digits_no_under {d : PyStr} (hd : Digits d) : splitAt (· = '_') d = [d] := by
  apply splitAt_single
  intro x hx
  rw [decide_eq_false_iff_not]
  rintro rfl
  exact absurd (hd.2 _ hx) (by decide)

theorem pyInt_digits {d : PyStr} (hd : Digits d) : pyInt d = .ok (number d : Int) := by
  have hs : signAndDigits d = (1, d) := by
    cases d with
    | nil => exact absurd rfl hd.1
    | cons c d =>
      have hc := hd.2 c (by simp)
      unfold signAndDigits
      split
      · rename_i h; cases h; exact absurd hc (by decide)
      · rename_i h; cases h; exact absurd hc (by decide)
      · rfl
  unfold pyInt
  simp only [digits_strip hd, hs, digits_no_under hd, List.all_cons, List.all_nil, Bool.and_true, digits_all hd, if_true, List.flatten_cons,
    List.flatten_nil, List.append_nil, fold_number d hd.2, Int.one_mul]

theorem digit_not_letter (c : Char) (h : IsDigit c) : ¬ IsLetter c := by
  have : ∀ c ∈ "0123456789".toList, ¬ IsLetter c := by decide
  exact this c (digit_mem c h)

theorem sep_not_letter (c : Char) (h : IsSep c) : ¬ IsLetter c := by
  rcases h with rfl | rfl | rfl <;> decide

/-- The tag pattern on the text of a tag. -/
theorem fullmatch_tag (ph : PyStr) (v : Option (PyStr × PyStr)) (hph : ph ≠ [] ∧ ∀ c ∈ ph, IsLetter c)
    (hv : ∀ s d, v = some (s, d) → OptSep s ∧ Digits d) :
    ∃ m, fullmatch Pattern.tag (ph ++ (TagSpelling.mk [] ph v).valueText) = some m ∧ get .phase m = some ph ∧ get .value m = v.map (·.2) := by
  have iff : ∀ w c, Matches Pattern.tag w c ↔ ∃ ph v, (ph ≠ [] ∧ ∀ c ∈ ph, IsLetter c) ∧ (∀ s d, v = some (s, d) → OptSep s ∧ Digits d) ∧
      w = ph ++ (TagSpelling.mk [] ph v).valueText ∧ c = (TagSpelling.mk [] ph v).valueCaps .value ++ [(.phase, ph)] := by
    intro w c
    have hal : ∀ w c, Matches (plus Pattern.alpha) w c ↔ (w ≠ [] ∧ ∀ c ∈ w, IsLetter c) ∧ c = [] := by
      intro w c
      unfold Pattern.alpha
      rw [plus_chr_iff]
      simp only [isAlpha_iff]
    constructor
    · rintro ⟨w1, w2, c1, c2, rfl, rfl, ⟨c3, h1, rfl⟩, h2⟩
      obtain ⟨h1', rfl⟩ := (hal _ _).1 h1
      rcases h2 with h2 | ⟨rfl, rfl⟩
      · obtain ⟨s, d, hs, hd, rfl, rfl⟩ := (valueRe_iff .value _ _).1 h2
        exact ⟨w1, some (s, d), h1', by rintro _ _ ⟨⟩; exact ⟨hs, hd⟩, rfl, rfl⟩
      · exact ⟨w1, none, h1', by simp, rfl, rfl⟩
    · rintro ⟨ph, v, hph, hv, rfl, rfl⟩
      refine ⟨ph, _, [(.phase, ph)], _, rfl, rfl, ⟨[], (hal _ _).2 ⟨hph, rfl⟩, rfl⟩, ?_⟩
      cases v with
      | none => exact .inr ⟨rfl, rfl⟩
      | some x =>
        obtain ⟨hs, hd⟩ := hv x.1 x.2 rfl
        exact .inl ((valueRe_iff .value _ _).2 ⟨x.1, x.2, hs, hd, rfl, rfl⟩)
  have nol : ∀ (v : Option (PyStr × PyStr)) (ph : PyStr), (∀ s d, v = some (s, d) → OptSep s ∧ Digits d) →
      ∀ c r', (TagSpelling.mk [] ph v).valueText = c :: r' → ¬ IsLetter c := by
    intro v ph hv c r' h
    cases v with
    | none => simp [TagSpelling.valueText] at h
    | some x =>
      obtain ⟨hs, hne, hd⟩ := hv x.1 x.2 rfl
      rcases hs with hs | ⟨c', hs, hc'⟩
      · simp only [TagSpelling.valueText, hs, List.nil_append] at h
        exact digit_not_letter c (hd c (by simp [h]))
      · simp only [TagSpelling.valueText, hs, List.cons_append, List.cons.injEq] at h
        exact h.1 ▸ sep_not_letter c' hc'
  have rv : ∀ (v : Option (PyStr × PyStr)) (ph : PyStr), (∀ s d, v = some (s, d) → OptSep s ∧ Digits d) →
      readValue (TagSpelling.mk [] ph v).valueText = (v, []) := by
    intro v ph hv
    cases v with
    | none => rfl
    | some x =>
      obtain ⟨hs, hd⟩ := hv x.1 x.2 rfl
      have := readValue_some x.1 x.2 [] hs hd (by intro c r h; cases h)
      rw [List.append_nil] at this
      exact this
  refine ⟨(TagSpelling.mk [] ph v).valueCaps .value ++ [(.phase, ph)], ?_, ?_, ?_⟩
  · apply fullmatch_unique
    · exact (iff _ _).2 ⟨ph, v, hph, hv, rfl, rfl⟩
    · intro c' hc'
      obtain ⟨ph', v', hph', hv', e, rfl⟩ := (iff _ _).1 hc'
      obtain ⟨rfl, e'⟩ := cut_unique IsLetter hph.2 hph'.2 (nol v ph hv) (nol v' ph' hv') e
      have := rv v ph hv
      rw [e', rv v' ph hv'] at this
      obtain ⟨rfl, -⟩ := Prod.mk.inj this
      rfl
  · cases v <;> rfl
  · cases v <;> rfl

theorem parse_tag (cls : TagClass) {words : List PyStr} (hw : Lower words) {t : TagSpelling} (ht : t.WF words) :
    Tag.parse cls t.body = Tag.create cls t.phase t.num := by
  have hph : t.phase ≠ [] ∧ ∀ c ∈ t.phase, IsLetter c := by
    obtain ⟨h1, h2⟩ := hw _ ht.phase
    refine ⟨by rintro h; rw [h] at h1; exact h1 rfl, ?_⟩
    intro c hc
    have := h2 (foldCase c) (List.mem_map_of_mem hc)
    unfold IsLetter
    have key : ∀ x ∈ "abcdefghijklmnopqrstuvwxyz".toList, 'a' ≤ x ∧ x ≤ 'z' := by decide
    exact key _ this
  obtain ⟨s, ph, v⟩ := t
  obtain ⟨m, h1, h2, h3⟩ := fullmatch_tag ph v hph ht.value
  have e : (TagSpelling.mk s ph v).body = ph ++ (TagSpelling.mk [] ph v).valueText := rfl
  unfold Tag.parse
  rw [e, h1]
  simp only [h2, h3]
  cases v with
  | none => rfl
  | some x =>
    obtain ⟨-, hd⟩ := ht.value x.1 x.2 rfl
    simp only [Option.map_some, pyInt_digits hd]
    rfl

/-! ### splitting -/

/-- Splitting parts that are joined by separators. -/
theorem splitAt_parts (p : Char → Bool) (l : List (Char × PyStr)) : ∀ (a : PyStr), (∀ x ∈ a, p x = false) →
    (∀ y ∈ l, p y.1 = true ∧ ∀ x ∈ y.2, p x = false) →
    splitAt p (a ++ (l.map (fun x => x.1 :: x.2)).flatten) = a :: l.map (·.2) := by
  induction l with
  | nil =>
    intro a ha _
    rw [List.map_nil, List.flatten_nil, List.append_nil, splitAt_single p a ha]
    rfl
  | cons y l ih =>
    intro a ha hl
    obtain ⟨h1, h2⟩ := hl y (by simp)
    rw [List.map_cons, List.flatten_cons, List.cons_append, splitAt_append p a y.1 _ ha h1,
      ih y.2 h2 (fun z hz => hl z (List.mem_cons_of_mem _ hz))]
    rfl

theorem mapAll_map {α β : Type} (f : α → Except PyErr β) (g : α → β) (l : List α) (h : ∀ x ∈ l, f x = .ok (g x)) : mapAll f l = .ok (l.map g) := by
  induction l with
  | nil => rfl
  | cons x l ih =>
    rw [mapAll, h x (by simp), ih (fun y hy => h y (List.mem_cons_of_mem _ hy))]
    rfl

theorem parse_release {m : PyStr} {l : List PyStr} (hm : Digits m) (hl : ∀ d ∈ l, Digits d) :
    Release.parse (Spelling.releaseText m l) = .ok ⟨(m :: l).map (fun d => (number d : Int))⟩ := by
  have nd : ∀ d, Digits d → ∀ x ∈ d, decide (x = '.') = false := by
    intro d hd x hx
    rw [decide_eq_false_iff_not]
    rintro rfl
    exact digit_not_sep '.' (hd.2 _ hx) (by decide)
  have hs : splitDot (Spelling.releaseText m l) = m :: l := by
    have := splitAt_parts (· = '.') (l.map (fun d => ('.', d))) m (nd m hm) (by
      intro y hy
      rw [List.mem_map] at hy
      obtain ⟨d, hd, rfl⟩ := hy
      exact ⟨by simp, nd d (hl d hd)⟩)
    simp only [List.map_map] at this
    unfold splitDot Spelling.releaseText
    have e : (fun x : Char × PyStr => x.2) ∘ (fun d => ('.', d)) = id := rfl
    rw [e, List.map_id] at this
    exact this
  have hall : ∀ d ∈ m :: l, pyInt d = .ok ((fun d => (number d : Int)) d) := by
    intro d hd
    rcases List.mem_cons.1 hd with rfl | hd
    · exact pyInt_digits hm
    · exact pyInt_digits (hl d hd)
  unfold Release.parse
  rw [hs, mapAll_map _ _ _ hall]
  rfl


/-- The meaning of a part of the local segment. -/
def partMeaning (s : PyStr) : LocalPart := if Digits s then .int (number s) else .str s

theorem partOf_iff (s : PyStr) (x : LocalPart) : Spelling.PartOf s x ↔ x = partMeaning s := by
  unfold Spelling.PartOf partMeaning
  by_cases h : Digits s <;> simp [h]

theorem parse_part (s : PyStr) : LocalPart.parse s = .ok (partMeaning s) := by
  unfold LocalPart.parse partMeaning
  by_cases h : Digits s
  · have hall : s.all isDecimal = true := by
      rw [List.all_eq_true]
      intro c hc
      rw [isDecimal_iff]
      exact h.2 c hc
    have hne : s.isEmpty = false := by simp [h.1]
    simp only [hall, hne, h, pyInt_digits h]
    rfl
  · have : (!s.isEmpty && s.all isDecimal) = false := by
      rw [Bool.eq_false_iff]
      intro h'
      rw [Bool.and_eq_true, List.all_eq_true] at h'
      apply h
      refine ⟨?_, fun c hc => (isDecimal_iff c).1 (h'.2 c hc)⟩
      rintro rfl
      simp at h'
    simp [this, h]

theorem parse_local {l : LocalSpelling} (hl : AlphaNum l.1 ∧ ∀ x ∈ l.2, IsSep x.1 ∧ AlphaNum x.2) :
    Local.parse (Spelling.localBody l) = .ok ⟨(l.1 :: l.2.map (·.2)).map partMeaning⟩ := by
  let tr : Char → Char := fun c => if c = '-' ∨ c = '_' then '.' else c
  have htr : ∀ c, ¬ IsSep c → tr c = c := by
    intro c hc
    simp only [tr]
    rw [if_neg]
    rintro (rfl | rfl) <;> exact hc (by decide)
  have hmap : ∀ s, AlphaNum s → s.map tr = s := by
    intro s hs
    conv_rhs => rw [← List.map_id s]
    apply List.map_congr_left
    intro c hc
    exact htr c (alnum_not_sep c (hs.2 c hc))
  have nodot : ∀ s, AlphaNum s → ∀ x ∈ s, decide (x = '.') = false := by
    intro s hs x hx
    rw [decide_eq_false_iff_not]
    rintro rfl
    exact alnum_not_sep '.' (hs.2 _ hx) (by decide)
  have e : (Spelling.localBody l).map tr = l.1 ++ ((l.2.map (fun x => ('.', x.2))).map (fun x => x.1 :: x.2)).flatten := by
    unfold Spelling.localBody
    rw [List.map_append, hmap _ hl.1, List.map_flatten, List.map_map, List.map_map]
    congr 2
    apply List.map_congr_left
    intro x hx
    obtain ⟨h1, h2⟩ := hl.2 x hx
    simp only [Function.comp, List.map_cons, hmap _ h2, List.cons.injEq, and_true]
    rcases h1 with h1 | h1 | h1 <;> rw [h1] <;> decide
  have hs : splitSeparators (Spelling.localBody l) = l.1 :: l.2.map (·.2) := by
    unfold splitSeparators
    have e' : (Spelling.localBody l).map (fun c => if c = '-' ∨ c = '_' then '.' else c) = (Spelling.localBody l).map tr := rfl
    rw [e', e, splitAt_parts (· = '.') _ l.1 (nodot _ hl.1)]
    · rw [List.map_map]
      rfl
    · intro y hy
      rw [List.mem_map] at hy
      obtain ⟨x, hx, rfl⟩ := hy
      exact ⟨by simp, nodot _ (hl.2 x hx).2⟩
  unfold Local.parse
  rw [hs, mapAll_map _ partMeaning _ (fun x _ => parse_part x)]
  rfl

/-! ### versions -/

/-- The tag that a spelling denotes, if it is in lower case. -/
def tagMeaning (cls : TagClass) (t : TagSpelling) : Except PyErr Tag := Tag.create cls t.phase t.num

def postMeaning : PostSpelling → Except PyErr Tag
  | .implicit d => .ok ⟨"post".toList, number d⟩
  | .tag t => tagMeaning .post t

def optMeaning {α β : Type} (f : α → Except PyErr β) : Option α → Except PyErr (Option β)
  | none => .ok none
  | some x => do .ok (some (← f x))

def meaning (p : Spelling) : Except PyErr Version := do
  let pre ← optMeaning (tagMeaning .pre) p.pre
  let post ← optMeaning postMeaning p.post
  let dev ← optMeaning (tagMeaning .dev) p.dev
  .ok { epoch := ⟨(p.epoch.map number).getD 0⟩, release := ⟨(p.major :: p.release).map (fun d => (number d : Int))⟩, pre, post, dev,
        local_ := p.local_.map (fun l => ⟨(l.1 :: l.2.map (·.2)).map partMeaning⟩) }

theorem get_caps (p : Spelling) : get .epoch p.caps = p.epoch ∧ get .release p.caps = some (Spelling.releaseText p.major p.release) ∧
    get .pre p.caps = p.pre.map (·.body) ∧ get .dev p.caps = p.dev.map (·.body) ∧ get .local_ p.caps = p.local_.map Spelling.localBody ∧
    (match p.post with
      | none => get .postImplicit p.caps = none ∧ get .post p.caps = none
      | some (.implicit d) => get .postImplicit p.caps = some d
      | some (.tag t) => get .postImplicit p.caps = none ∧ get .post p.caps = some t.body) := by
  obtain ⟨v, e, m, l, pre, post, dev, loc⟩ := p
  have tagc : ∀ (g gp gv h : Grp) (t : TagSpelling), get h (t.caps g gp gv) =
      if g = h then some t.body else if gv = h ∧ t.value ≠ none then t.value.map (·.2) else if gp = h then some t.phase else none := by
    intro g gp gv h t
    obtain ⟨s, ph, v⟩ := t
    unfold TagSpelling.caps
    rw [get_cons, get_append]
    by_cases h1 : g = h
    · simp [h1]
    · cases v with
      | none => simp [h1, TagSpelling.valueCaps, get_cons]
      | some x =>
        by_cases h2 : gv = h <;> simp [h1, h2, TagSpelling.valueCaps, get_cons]
  cases e <;> cases pre <;> cases dev <;> cases loc <;> (cases post with
    | none => simp [Spelling.caps, Spelling.tailCaps, Spelling.localCaps, Spelling.devCaps, Spelling.postCaps, Spelling.preCaps,
        Spelling.headCaps, Spelling.epochCaps, Spelling.optCaps, get_append, get_cons, tagc]
    | some po => cases po <;> simp [Spelling.caps, Spelling.tailCaps, Spelling.localCaps, Spelling.devCaps, Spelling.postCaps, Spelling.preCaps,
        Spelling.headCaps, Spelling.epochCaps, Spelling.optCaps, get_append, get_cons, tagc])

theorem parse_text {p : Spelling} (hp : p.WF) (gp : p.Greedy) : Version.parse p.text = meaning p := by
  obtain ⟨h1, h2, h3, h4, h5, h6⟩ := get_caps p
  unfold Version.parse
  rw [fullmatch_text hp gp]
  simp only [h1, h2, h3, h4, h5, parse_release hp.major hp.release]
  have tag : ∀ (cls : TagClass) (words : List PyStr) (t : Option TagSpelling), Lower words → (∀ x, t = some x → x.WF words) →
      optionally (Tag.parse cls) (t.map (·.body)) = optMeaning (tagMeaning cls) t := by
    intro cls words t hw ht
    cases t with
    | none => rfl
    | some t =>
      simp only [Option.map_some, optionally, optMeaning, parse_tag cls hw (ht t rfl)]
      rfl
  have loc : optionally Local.parse (p.local_.map Spelling.localBody) =
      .ok (p.local_.map (fun l => ⟨(l.1 :: l.2.map (·.2)).map partMeaning⟩)) := by
    cases hl : p.local_ with
    | none => rfl
    | some l =>
      simp only [Option.map_some, optionally, parse_local (hp.local_ l hl)]
      rfl
  have key : ∀ e : Epoch, e = ⟨(p.epoch.map number).getD 0⟩ → (do
      let release ← (.ok ⟨(p.major :: p.release).map (fun d => (number d : Int))⟩ : Except PyErr Release)
      let pre ← optionally (Tag.parse .pre) (p.pre.map (·.body))
      let implicit ← optionally (fun s => do Tag.defaultPhaseWithValue .post (← pyInt s)) (Re.get .postImplicit p.caps)
      let post ← match implicit with
        | some t => .ok (some t)
        | none => optionally (Tag.parse .post) (Re.get .post p.caps)
      let dev ← optionally (Tag.parse .dev) (p.dev.map (·.body))
      let local_ ← optionally Local.parse (p.local_.map Spelling.localBody)
      .ok { epoch := e, release, pre, post, dev, local_ }) = meaning p := by
    rintro _ rfl
    rw [tag .pre _ _ preWords_lower hp.pre, tag .dev _ _ devWords_lower hp.dev, loc]
    unfold meaning
    cases hpost : p.post with
    | none =>
      rw [hpost] at h6
      simp only [h6.1, h6.2]
      cases optMeaning (tagMeaning .pre) p.pre <;> cases optMeaning (tagMeaning .dev) p.dev <;> rfl
    | some po =>
      rw [hpost] at h6
      cases po with
      | implicit d =>
        simp only at h6
        have hd : Digits d := hp.post _ hpost
        simp only [h6, optionally, pyInt_digits hd]
        cases optMeaning (tagMeaning .pre) p.pre <;> cases optMeaning (tagMeaning .dev) p.dev <;> rfl
      | tag t =>
        simp only at h6
        have ht : t.WF postWords := hp.post _ hpost
        have e : tagMeaning .post t = Tag.parse .post t.body := (parse_tag .post postWords_lower ht).symm
        simp only [h6.1, h6.2, optionally, optMeaning, postMeaning, e]
        cases optMeaning (tagMeaning .pre) p.pre <;> cases Tag.parse .post t.body <;> cases optMeaning (tagMeaning .dev) p.dev <;> rfl
  cases he : p.epoch with
  | none => exact key {} (by rw [he]; rfl)
  | some d =>
    simp only [Epoch.parse, pyInt_digits (hp.epoch d he)]
    exact key ⟨number d⟩ (by rw [he]; rfl)

/-- The words of a class of tags. -/
def wordsOf : TagClass → List PyStr
  | .pre => preWords
  | .post => postWords
  | .dev => devWords

theorem dictGet_none {β : Type} {d : List (PyStr × β)} {k : PyStr} (h : ∀ v, (k, v) ∉ d) : dictGet d k = none := by
  unfold dictGet
  rw [Option.map_eq_none_iff, List.find?_eq_none]
  intro x hx he
  rw [beq_iff_eq] at he
  exact h x.2 (he ▸ hx)

/-- Creating a tag from a word of its class, up to case. -/
theorem create_word (cls : TagClass) (ph : PyStr) (n : Int) (h : ph.map foldCase ∈ wordsOf cls) :
    (ph ∈ wordsOf cls ∧ ∃ x, Tag.create cls ph n = .ok ⟨x, n⟩ ∧ ∀ y, (ph, y) ∈ Spelling.phaseMeaning ↔ y = x) ∨
    (ph ∉ wordsOf cls ∧ Tag.create cls ph n = .error .valueError ∧ ∀ y, (ph, y) ∉ Spelling.phaseMeaning) := by
  by_cases hw : ph ∈ wordsOf cls
  · left
    refine ⟨hw, Tag.convertPhase ph, ?_, ?_⟩
    · have : ∀ cls, ∀ ph ∈ wordsOf cls, Tag.convertPhase ph ∈ cls.phaseSet := by
        intro cls
        cases cls <;> decide
      unfold Tag.create
      rw [if_pos (this cls ph hw)]
    · have h1 : ∀ e ∈ Spelling.phaseMeaning, e.2 = Tag.convertPhase e.1 := by decide
      have h2 : ∀ cls, ∀ ph ∈ wordsOf cls, (ph, Tag.convertPhase ph) ∈ Spelling.phaseMeaning := by
        intro cls
        cases cls <;> decide
      intro y
      exact ⟨fun hy => h1 _ hy, fun hy => hy ▸ h2 cls ph hw⟩
  · right
    have no : ∀ l : List PyStr, (∀ x ∈ l, x.map foldCase = x) → ph ∉ l := by
      intro l hl hm
      exact hw (hl ph hm ▸ h)
    have f1 : ph ∉ Phases.shortToPhase.map (·.1) := no _ (by decide)
    have f2 : ph ∉ cls.phaseSet := no _ (by cases cls <;> decide)
    have f3 : ph ∉ Spelling.phaseMeaning.map (·.1) := no _ (by decide)
    refine ⟨hw, ?_, ?_⟩
    · have : Tag.convertPhase ph = ph := by
        unfold Tag.convertPhase
        rw [dictGet_none]
        · rfl
        · intro v hv
          exact f1 (List.mem_map.2 ⟨_, hv, rfl⟩)
      unfold Tag.create
      rw [this, if_neg f2]
    · intro y hy
      exact f3 (List.mem_map.2 ⟨_, hy, rfl⟩)

theorem tagMeaning_ok {cls : TagClass} {t : TagSpelling} (ht : t.WF (wordsOf cls)) (x : Tag) :
    tagMeaning cls t = .ok x ↔ Spelling.TagOf t x := by
  unfold tagMeaning Spelling.TagOf
  rcases create_word cls t.phase t.num ht.phase with ⟨-, y, h1, h2⟩ | ⟨-, h1, h2⟩
  · rw [h1, h2, Except.ok.injEq]
    constructor
    · rintro rfl
      exact ⟨rfl, rfl⟩
    · rintro ⟨h3, h4⟩
      cases x
      simp only at h3 h4
      rw [h3, h4]
  · rw [h1]
    constructor
    · intro h
      cases h
    · rintro ⟨h3, -⟩
      exact absurd h3 (h2 _)

theorem tagMeaning_cases {cls : TagClass} {t : TagSpelling} (ht : t.WF (wordsOf cls)) :
    (t.phase ∈ wordsOf cls ∧ ∃ x, tagMeaning cls t = .ok x) ∨ (t.phase ∉ wordsOf cls ∧ tagMeaning cls t = .error .valueError) := by
  rcases create_word cls t.phase t.num ht.phase with ⟨h, y, h1, h2⟩ | ⟨h, h1, h2⟩
  · exact .inl ⟨h, _, h1⟩
  · exact .inr ⟨h, h1⟩

theorem postMeaning_ok {t : PostSpelling} (ht : t.WF postWords) (x : Tag) : postMeaning t = .ok x ↔ Spelling.PostOf t x := by
  cases t with
  | implicit d =>
    simp only [postMeaning, Spelling.PostOf, Except.ok.injEq]
    exact eq_comm
  | tag t => exact tagMeaning_ok (cls := .post) ht x

theorem optMeaning_ok {α β : Type} (f : α → Except PyErr β) (r : α → β → Prop) (o : Option α) (h : ∀ a, o = some a → ∀ b, f a = .ok b ↔ r a b)
    (x : Option β) : optMeaning f o = .ok x ↔ Spelling.OptOf r o x := by
  cases o with
  | none => cases x <;> simp [optMeaning, Spelling.OptOf]
  | some a =>
    have := h a rfl
    simp only [optMeaning]
    cases hf : f a with
    | error e =>
      cases x with
      | none => exact ⟨fun h => (by cases h), fun h => by cases h⟩
      | some b =>
        refine ⟨fun h => (by cases h), fun h => ?_⟩
        have h' := (this b).2 h
        rw [hf] at h'
        cases h'
    | ok b' =>
      cases x with
      | none => exact ⟨fun h => (by cases h), fun h => by cases h⟩
      | some b =>
        simp only [Spelling.OptOf]
        rw [← this, hf]
        constructor
        · intro h
          cases h
          rfl
        · intro h
          cases h
          rfl

theorem local_ok (l : Option (PyStr × List (Char × PyStr))) (x : Option Local) :
    x = l.map (fun l => ⟨(l.1 :: l.2.map (·.2)).map partMeaning⟩) ↔ Spelling.OptOf Spelling.LocalOf l x := by
  have key : ∀ (a : List PyStr) (b : List LocalPart), b = a.map partMeaning ↔ List.Forall₂ Spelling.PartOf a b := by
    intro a
    induction a with
    | nil =>
      intro b
      cases b <;> simp
    | cons y a ih =>
      intro b
      cases b with
      | nil => simp
      | cons z b => simp [ih, partOf_iff]
  cases l with
  | none => cases x <;> simp [Spelling.OptOf]
  | some l =>
    cases x with
    | none => simp [Spelling.OptOf]
    | some x =>
      obtain ⟨parts⟩ := x
      simp only [Option.map_some, Option.some.injEq, Spelling.OptOf, Spelling.LocalOf, ← key, Local.mk.injEq]

theorem meaning_ok {p : Spelling} (hp : p.WF) (v : Version) : meaning p = .ok v ↔ p.Of v := by
  have h1 := fun x => optMeaning_ok (tagMeaning .pre) Spelling.TagOf p.pre (fun a ha => tagMeaning_ok (cls := .pre) (hp.pre a ha)) x
  have h2 := fun x => optMeaning_ok postMeaning Spelling.PostOf p.post (fun a ha => postMeaning_ok (hp.post a ha)) x
  have h3 := fun x => optMeaning_ok (tagMeaning .dev) Spelling.TagOf p.dev (fun a ha => tagMeaning_ok (cls := .dev) (hp.dev a ha)) x
  obtain ⟨⟨e⟩, ⟨r⟩, pre, post, dev, loc⟩ := v
  have split : p.Of ⟨⟨e⟩, ⟨r⟩, pre, post, dev, loc⟩ ↔ e = (p.epoch.map number).getD 0 ∧ r = (p.major :: p.release).map (fun d => (number d : Int)) ∧
      optMeaning (tagMeaning .pre) p.pre = .ok pre ∧ optMeaning postMeaning p.post = .ok post ∧ optMeaning (tagMeaning .dev) p.dev = .ok dev ∧
      loc = p.local_.map (fun l => ⟨(l.1 :: l.2.map (·.2)).map partMeaning⟩) := by
    rw [h1, h2, h3, local_ok]
    exact ⟨fun ⟨a, b, c, d, e, f⟩ => ⟨a, b, c, d, e, f⟩, fun ⟨a, b, c, d, e, f⟩ => ⟨a, b, c, d, e, f⟩⟩
  rw [split]
  unfold meaning
  cases optMeaning (tagMeaning .pre) p.pre with
  | error e => exact ⟨fun h => (by cases h), fun h => by cases h.2.2.1⟩
  | ok a =>
    cases optMeaning postMeaning p.post with
    | error e => exact ⟨fun h => (by cases h), fun h => by cases h.2.2.2.1⟩
    | ok b =>
      cases optMeaning (tagMeaning .dev) p.dev with
      | error e => exact ⟨fun h => (by cases h), fun h => by cases h.2.2.2.2.1⟩
      | ok c =>
        constructor
        · intro h
          cases h
          exact ⟨rfl, rfl, rfl, rfl, rfl, rfl⟩
        · rintro ⟨rfl, rfl, h3, h4, h5, rfl⟩
          cases h3
          cases h4
          cases h5
          rfl

theorem meaning_cases {p : Spelling} (hp : p.WF) :
    (p.LowerCase ∧ ∃ v, meaning p = .ok v) ∨ (¬ p.LowerCase ∧ meaning p = .error .valueError) := by
  have opt : ∀ cls (t : Option TagSpelling), (∀ x, t = some x → x.WF (wordsOf cls)) →
      ((∀ x, t = some x → x.phase ∈ wordsOf cls) ∧ ∃ x, optMeaning (tagMeaning cls) t = .ok x) ∨
      ((¬ ∀ x, t = some x → x.phase ∈ wordsOf cls) ∧ optMeaning (tagMeaning cls) t = .error .valueError) := by
    intro cls t ht
    cases t with
    | none => exact .inl ⟨by simp, none, rfl⟩
    | some t =>
      rcases tagMeaning_cases (ht t rfl) with ⟨h1, x, h2⟩ | ⟨h1, h2⟩
      · refine .inl ⟨(by rintro _ ⟨⟩; exact h1), some x, ?_⟩
        simp only [optMeaning, h2]
        rfl
      · refine .inr ⟨fun h => h1 (h t rfl), ?_⟩
        simp only [optMeaning, h2]
        rfl
  have popt : ((∀ x, p.post = some (.tag x) → x.phase ∈ postWords) ∧ ∃ x, optMeaning postMeaning p.post = .ok x) ∨
      ((¬ ∀ x, p.post = some (.tag x) → x.phase ∈ postWords) ∧ optMeaning postMeaning p.post = .error .valueError) := by
    cases hpo : p.post with
    | none => exact .inl ⟨by simp, none, rfl⟩
    | some po =>
      cases po with
      | implicit d => exact .inl ⟨(by rintro _ ⟨⟩), _, rfl⟩
      | tag t =>
        rcases tagMeaning_cases (cls := .post) (hp.post _ hpo) with ⟨h1, x, h2⟩ | ⟨h1, h2⟩
        · refine .inl ⟨(by rintro _ ⟨⟩; exact h1), some x, ?_⟩
          simp only [optMeaning, postMeaning, h2]
          rfl
        · refine .inr ⟨fun h => h1 (h t rfl), ?_⟩
          simp only [optMeaning, postMeaning, h2]
          rfl
  have hl : p.LowerCase ↔ (∀ x, p.pre = some x → x.phase ∈ wordsOf .pre) ∧ (∀ x, p.post = some (.tag x) → x.phase ∈ postWords) ∧
      (∀ x, p.dev = some x → x.phase ∈ wordsOf .dev) :=
    ⟨fun ⟨a, b, c⟩ => ⟨a, b, c⟩, fun ⟨a, b, c⟩ => ⟨a, b, c⟩⟩
  rw [hl]
  unfold meaning
  rcases opt .pre p.pre hp.pre with ⟨h1, x, e1⟩ | ⟨h1, e1⟩
  · rcases popt with ⟨h2, y, e2⟩ | ⟨h2, e2⟩
    · rcases opt .dev p.dev hp.dev with ⟨h3, z, e3⟩ | ⟨h3, e3⟩
      · exact .inl ⟨⟨h1, h2, h3⟩, _, by rw [e1, e2, e3]; rfl⟩
      · exact .inr ⟨fun h => h3 h.2.2, by rw [e1, e2, e3]; rfl⟩
    · exact .inr ⟨fun h => h2 h.2.1, by rw [e1, e2]; rfl⟩
  · exact .inr ⟨fun h => h1 h.1, by rw [e1]; rfl⟩

/-- What a successful parse means. -/
theorem parse_ok_iff (s : PyStr) (v : Version) :
    Version.parse s = .ok v ↔ ∃ p : Spelling, p.WF ∧ p.Greedy ∧ s = p.text ∧ p.Of v := by
  constructor
  · intro h
    cases hm : fullmatch Pattern.version s with
    | none =>
      unfold Version.parse at h
      rw [hm] at h
      cases h
    | some c =>
      obtain ⟨p, hp, gp, rfl, -⟩ := fullmatch_version hm
      rw [parse_text hp gp] at h
      exact ⟨p, hp, gp, rfl, (meaning_ok hp v).1 h⟩
  · rintro ⟨p, hp, gp, rfl, h⟩
    rw [parse_text hp gp]
    exact (meaning_ok hp v).2 h

/-- Every string that has a spelling has a greedy one. -/
theorem spelling_greedy {s : PyStr} : (∃ p : Spelling, p.WF ∧ s = p.text) ↔ ∃ p : Spelling, p.WF ∧ p.Greedy ∧ s = p.text := by
  constructor
  · rintro ⟨p, hp, rfl⟩
    obtain ⟨c, hc⟩ := fullmatch_some ((version_iff _ _).2 ⟨p, hp, rfl, rfl⟩)
    obtain ⟨q, hq, gq, e, -⟩ := fullmatch_version hc
    exact ⟨q, hq, gq, e⟩
  · rintro ⟨p, hp, -, e⟩
    exact ⟨p, hp, e⟩

theorem parse_no_spelling (s : PyStr) : Version.parse s = .error .parseVersionError ↔ ¬ ∃ p : Spelling, p.WF ∧ s = p.text := by
  constructor
  · intro h hs
    obtain ⟨p, hp, gp, rfl⟩ := spelling_greedy.1 hs
    rw [parse_text hp gp] at h
    rcases meaning_cases hp with ⟨-, v, e⟩ | ⟨-, e⟩ <;> rw [e] at h <;> cases h
  · intro h
    unfold Version.parse
    cases hm : fullmatch Pattern.version s with
    | none => rfl
    | some c =>
      obtain ⟨p, hp, gp, e, -⟩ := fullmatch_version hm
      exact absurd ⟨p, hp, e⟩ h

theorem parse_value_error (s : PyStr) :
    Version.parse s = .error .valueError ↔ ∃ p : Spelling, p.WF ∧ p.Greedy ∧ s = p.text ∧ ¬ p.LowerCase := by
  constructor
  · intro h
    have hs : ∃ p : Spelling, p.WF ∧ s = p.text := by
      by_contra hn
      rw [(parse_no_spelling s).2 hn] at h
      cases h
    obtain ⟨p, hp, gp, rfl⟩ := spelling_greedy.1 hs
    rw [parse_text hp gp] at h
    rcases meaning_cases hp with ⟨-, v, e⟩ | ⟨hl, e⟩
    · rw [e] at h
      cases h
    · exact ⟨p, hp, gp, rfl, hl⟩
  · rintro ⟨p, hp, gp, rfl, hl⟩
    rw [parse_text hp gp]
    rcases meaning_cases hp with ⟨hl', -⟩ | ⟨-, e⟩
    · exact absurd hl' hl
    · exact e

theorem parse_cases (s : PyStr) :
    (∃ v, Version.parse s = .ok v) ∨ Version.parse s = .error .parseVersionError ∨ Version.parse s = .error .valueError := by
  by_cases hs : ∃ p : Spelling, p.WF ∧ s = p.text
  · obtain ⟨p, hp, gp, rfl⟩ := spelling_greedy.1 hs
    rw [parse_text hp gp]
    rcases meaning_cases hp with ⟨-, v, e⟩ | ⟨-, e⟩
    · exact .inl ⟨v, e⟩
    · exact .inr (.inr e)
  · exact .inr (.inl ((parse_no_spelling s).2 hs))

end Verif
