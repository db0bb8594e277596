import Verif.Proofs.Regex
import Verif.Spec.Spelling
import Verif.Model.Parsers
/-!
# The version pattern matches exactly the spellings of versions
-/

namespace Verif

open Re

theorem isDigit_iff (c : Char) : Re.isDigit c = true ↔ IsDigit c := by simp [Re.isDigit, IsDigit]
theorem isSeparator_iff (c : Char) : Re.isSeparator c = true ↔ IsSep c := by simp [Re.isSeparator, IsSep, or_assoc]
theorem isDecimal_iff (c : Char) : isDecimal c = true ↔ IsDigit c := by simp [isDecimal, IsDigit]

theorem fold_lower (c : Char) : foldCase c =
    if c = '\u0131' then 'i' else if c = '\u017f' then 's' else Re.lower c := by
  unfold foldCase Re.lower
  by_cases h1 : c = '\u0131'
  · subst h1; decide
  by_cases h2 : c = '\u017f'
  · subst h2; decide
  by_cases h3 : c = '\u0130'
  · subst h3; decide
  by_cases h4 : c = '\u212a'
  · subst h4; decide
  simp [h1, h2, h3, h4]

theorem isAlpha_iff (c : Char) : Re.isAlpha c = true ↔ IsLetter c := by
  unfold IsLetter
  rw [fold_lower]
  by_cases h1 : c = '\u0131'
  · subst h1; decide
  by_cases h2 : c = '\u017f'
  · subst h2; decide
  simp [Re.isAlpha, h1, h2]

/-- A literal letter matches exactly the characters with that lower case. -/
theorem letter_iff (l : Char) (hl : l ∈ "abcdefghijklmnopqrstuvwxyz".toList) (w : PyStr) (caps : Caps) :
    Matches (letter l) w caps ↔ ∃ c, w = [c] ∧ foldCase c = l ∧ caps = [] := by
  unfold letter Matches
  have key : ∀ c : Char, (decide (Re.lower c = l) || (decide (l = 'i') && decide (c = '\u0131')) || (decide (l = 's') && decide (c = '\u017f'))) = true ↔ foldCase c = l := by
    intro c
    rw [fold_lower]
    by_cases h1 : c = '\u0131'
    · subst h1
      simp only [Re.lower]
      revert l
      decide
    by_cases h2 : c = '\u017f'
    · subst h2
      simp only [Re.lower]
      revert l
      decide
    simp [h1, h2]
  constructor
  · rintro ⟨c, rfl, h, rfl⟩; exact ⟨c, rfl, (key c).1 h, rfl⟩
  · rintro ⟨c, rfl, h, rfl⟩; exact ⟨c, rfl, (key c).2 h, rfl⟩

theorem seqs_cons (a : Re) (l : List Re) (w : PyStr) (c : Caps) :
    Matches (seqs (a :: l)) w c ↔ Matches (seq a (seqs l)) w c := by
  cases l with
  | nil =>
    simp only [seqs, Matches]
    constructor
    · intro h; exact ⟨w, [], c, [], by simp, by simp, h, rfl, rfl⟩
    · rintro ⟨w1, w2, c1, c2, rfl, rfl, h, rfl, rfl⟩; simpa using h
  | cons b l => rfl

theorem alts_cons (a : Re) (l : List Re) (w : PyStr) (c : Caps) :
    Matches (alts (a :: l)) w c ↔ Matches a w c ∨ Matches (alts l) w c := by
  cases l with
  | nil =>
    simp only [alts, Matches]
    simp
  | cons b l => rfl

theorem letters_iff : ∀ (s : PyStr), (∀ l ∈ s, l ∈ "abcdefghijklmnopqrstuvwxyz".toList) → ∀ w caps,
    Matches (seqs (s.map letter)) w caps ↔ w.map foldCase = s ∧ caps = [] := by
  intro s
  induction s with
  | nil =>
    intro _ w caps
    simp [seqs, Matches]
  | cons l s ih =>
    intro hs w caps
    rw [List.map_cons, seqs_cons]
    simp only [Matches]
    constructor
    · rintro ⟨w1, w2, c1, c2, rfl, rfl, h1, h2⟩
      rw [letter_iff l (hs l (by simp))] at h1
      rw [ih (fun x hx => hs x (List.mem_cons_of_mem _ hx))] at h2
      obtain ⟨c, rfl, rfl, rfl⟩ := h1
      obtain ⟨rfl, rfl⟩ := h2
      simp
    · rintro ⟨h, rfl⟩
      cases w with
      | nil => simp at h
      | cons c w =>
        simp only [List.map_cons, List.cons.injEq] at h
        exact ⟨[c], w, [], [], rfl, rfl, (letter_iff l (hs l (by simp)) _ _).2 ⟨c, rfl, h.1, rfl⟩,
          (ih (fun x hx => hs x (List.mem_cons_of_mem _ hx)) _ _).2 ⟨h.2, rfl⟩⟩

theorem phases_iff : ∀ (l : List String), (∀ s ∈ l, ∀ x ∈ s.toList, x ∈ "abcdefghijklmnopqrstuvwxyz".toList) → ∀ w caps,
    Matches (Pattern.phases l) w caps ↔ w.map foldCase ∈ l.map String.toList ∧ caps = [] := by
  intro l
  induction l with
  | nil => intro _ w caps; simp [Pattern.phases, alts, Matches]
  | cons s l ih =>
    intro hl w caps
    unfold Pattern.phases at ih ⊢
    rw [List.map_cons, alts_cons, ih (fun x hx => hl x (List.mem_cons_of_mem _ hx)), word,
      letters_iff _ (hl s (by simp))]
    simp only [List.map_cons, List.mem_cons]
    tauto

theorem pre_iff (w : PyStr) (caps : Caps) : Matches (Pattern.phases Pattern.prePhases) w caps ↔ w.map foldCase ∈ preWords ∧ caps = [] :=
  phases_iff _ (by decide) _ _
theorem post_iff (w : PyStr) (caps : Caps) : Matches (Pattern.phases Pattern.postPhases) w caps ↔ w.map foldCase ∈ postWords ∧ caps = [] :=
  phases_iff _ (by decide) _ _
theorem dev_iff (w : PyStr) (caps : Caps) : Matches (Pattern.phases Pattern.devPhases) w caps ↔ w.map foldCase ∈ devWords ∧ caps = [] :=
  phases_iff _ (by decide) _ _

theorem star_chr_iff (p : Char → Bool) (w : PyStr) (caps : Caps) :
    Matches (star (chr p)) w caps ↔ (∀ c ∈ w, p c = true) ∧ caps = [] := by
  constructor
  · rintro ⟨l, hl, rfl, rfl⟩
    constructor
    · intro c hc
      simp only [List.mem_flatten, List.mem_map] at hc
      obtain ⟨_, ⟨y, hy, rfl⟩, hxy⟩ := hc
      obtain ⟨_, d, hd, hp, _⟩ := hl y hy
      rw [hd, List.mem_singleton] at hxy
      exact hxy ▸ hp
    · rw [List.flatten_eq_nil_iff]
      intro x hx
      rw [List.mem_reverse, List.mem_map] at hx
      obtain ⟨y, hy, rfl⟩ := hx
      obtain ⟨_, d, hd, hp, h⟩ := hl y hy
      exact h
  · rintro ⟨h, rfl⟩
    refine ⟨w.map (fun c => ([c], [])), ?_, ?_, ?_⟩
    · intro x hx
      rw [List.mem_map] at hx
      obtain ⟨c, hc, rfl⟩ := hx
      exact ⟨by simp, c, rfl, h c hc, rfl⟩
    · clear h
      induction w with
      | nil => rfl
      | cons c w ih => simpa using ih
    · symm
      rw [List.flatten_eq_nil_iff]
      intro x hx
      simp only [List.map_map, List.mem_reverse, List.mem_map, Function.comp] at hx
      obtain ⟨_, _, rfl⟩ := hx
      rfl

theorem plus_chr_iff (p : Char → Bool) (w : PyStr) (caps : Caps) :
    Matches (plus (chr p)) w caps ↔ (w ≠ [] ∧ ∀ c ∈ w, p c = true) ∧ caps = [] := by
  unfold plus
  constructor
  · rintro ⟨w1, w2, c1, c2, rfl, rfl, ⟨x, rfl, hx, rfl⟩, h2⟩
    rw [star_chr_iff] at h2
    obtain ⟨h2, rfl⟩ := h2
    refine ⟨⟨by simp, ?_⟩, rfl⟩
    intro c hc
    rcases List.mem_append.1 hc with hc | hc
    · rw [List.mem_singleton] at hc; exact hc ▸ hx
    · exact h2 c hc
  · rintro ⟨⟨hne, h⟩, rfl⟩
    cases w with
    | nil => exact absurd rfl hne
    | cons x w =>
      exact ⟨[x], w, [], [], rfl, rfl, ⟨x, rfl, h x (by simp), rfl⟩, (star_chr_iff _ _ _).2 ⟨fun c hc => h c (List.mem_cons_of_mem _ hc), rfl⟩⟩

theorem digits_iff (w : PyStr) (caps : Caps) : Matches Pattern.digits w caps ↔ Digits w ∧ caps = [] := by
  unfold Pattern.digits Pattern.digit
  rw [plus_chr_iff]
  simp only [isDigit_iff, Digits]

theorem alphaDigits_iff (w : PyStr) (caps : Caps) : Matches (plus Pattern.alphaDigit) w caps ↔ AlphaNum w ∧ caps = [] := by
  unfold Pattern.alphaDigit
  rw [plus_chr_iff]
  simp only [Bool.or_eq_true, isAlpha_iff, isDigit_iff, AlphaNum]

theorem separator_iff (w : PyStr) (caps : Caps) : Matches Pattern.separator w caps ↔ (∃ c, w = [c] ∧ IsSep c) ∧ caps = [] := by
  unfold Pattern.separator Matches
  simp only [isSeparator_iff]
  constructor
  · rintro ⟨c, h, h', rfl⟩; exact ⟨⟨c, h, h'⟩, rfl⟩
  · rintro ⟨⟨c, h, h'⟩, rfl⟩; exact ⟨c, h, h', rfl⟩

theorem optSep_iff (w : PyStr) (caps : Caps) : Matches (opt Pattern.separator) w caps ↔ OptSep w ∧ caps = [] := by
  rw [Matches, separator_iff, OptSep, ← or_and_right, or_comm]

theorem lit_iff (l : Char) (w : PyStr) (caps : Caps) : Matches (lit l) w caps ↔ w = [l] ∧ caps = [] := by
  unfold lit Matches
  simp only [decide_eq_true_eq]
  constructor
  · rintro ⟨c, rfl, rfl, rfl⟩; exact ⟨rfl, rfl⟩
  · rintro ⟨rfl, rfl⟩; exact ⟨l, rfl, rfl, rfl⟩

/-- Repetition of `a` where `a` matches `f x` for the `x` with `P`, capturing nothing. -/
theorem star_iff {α : Type} (a : Re) (f : α → PyStr) (P : α → Prop) (hf : ∀ x, P x → f x ≠ [])
    (ha : ∀ w caps, Matches a w caps ↔ (∃ x, P x ∧ w = f x) ∧ caps = []) (w : PyStr) (caps : Caps) :
    Matches (star a) w caps ↔ (∃ l : List α, (∀ x ∈ l, P x) ∧ w = (l.map f).flatten) ∧ caps = [] := by
  constructor
  · rintro ⟨l, hl, rfl, rfl⟩
    constructor
    · induction l with
      | nil => exact ⟨[], by simp, rfl⟩
      | cons y l ih =>
        obtain ⟨l', h', e'⟩ := ih (fun x hx => hl x (List.mem_cons_of_mem _ hx))
        obtain ⟨-, m⟩ := hl y (by simp)
        obtain ⟨⟨x, hx, e⟩, -⟩ := (ha _ _).1 m
        refine ⟨x :: l', ?_, ?_⟩
        · intro z hz
          rcases List.mem_cons.1 hz with rfl | hz
          · exact hx
          · exact h' z hz
        · simp [e, e']
    · rw [List.flatten_eq_nil_iff]
      intro x hx
      rw [List.mem_reverse, List.mem_map] at hx
      obtain ⟨y, hy, rfl⟩ := hx
      exact ((ha _ _).1 (hl y hy).2).2
  · rintro ⟨⟨l, hl, rfl⟩, rfl⟩
    refine ⟨l.map (fun x => (f x, [])), ?_, ?_, ?_⟩
    · intro x hx
      rw [List.mem_map] at hx
      obtain ⟨y, hy, rfl⟩ := hx
      exact ⟨hf y (hl y hy), (ha _ _).2 ⟨⟨y, hl y hy, rfl⟩, rfl⟩⟩
    · rw [List.map_map]; rfl
    · symm
      rw [List.flatten_eq_nil_iff]
      intro x hx
      simp only [List.map_map, List.mem_reverse, List.mem_map, Function.comp] at hx
      obtain ⟨_, _, rfl⟩ := hx
      rfl

theorem release_iff (w : PyStr) (caps : Caps) : Matches Pattern.releaseNumbers w caps ↔
    (∃ major l, Digits major ∧ (∀ d ∈ l, Digits d) ∧ w = Spelling.releaseText major l) ∧ caps = [] := by
  unfold Pattern.releaseNumbers
  have hs : ∀ w caps, Matches (star (seq (lit '.') Pattern.digits)) w caps ↔
      (∃ l : List PyStr, (∀ x ∈ l, Digits x) ∧ w = (l.map ('.' :: ·)).flatten) ∧ caps = [] := by
    apply star_iff _ ('.' :: ·) Digits (by simp)
    intro w caps
    constructor
    · rintro ⟨w1, w2, c1, c2, rfl, rfl, h1, h2⟩
      rw [lit_iff] at h1; rw [digits_iff] at h2
      obtain ⟨rfl, rfl⟩ := h1
      obtain ⟨h2, rfl⟩ := h2
      exact ⟨⟨w2, h2, rfl⟩, rfl⟩
    · rintro ⟨⟨x, hx, rfl⟩, rfl⟩
      exact ⟨['.'], x, [], [], rfl, rfl, (lit_iff _ _ _).2 ⟨rfl, rfl⟩, (digits_iff _ _).2 ⟨hx, rfl⟩⟩
  constructor
  · rintro ⟨w1, w2, c1, c2, rfl, rfl, h1, h2⟩
    rw [digits_iff] at h1; rw [hs] at h2
    obtain ⟨h1, rfl⟩ := h1
    obtain ⟨⟨l, hl, rfl⟩, rfl⟩ := h2
    exact ⟨⟨w1, l, h1, hl, rfl⟩, rfl⟩
  · rintro ⟨⟨m, l, hm, hl, rfl⟩, rfl⟩
    exact ⟨m, _, [], [], rfl, rfl, (digits_iff _ _).2 ⟨hm, rfl⟩, (hs _ _).2 ⟨⟨l, hl, rfl⟩, rfl⟩⟩

theorem localBody_iff (w : PyStr) (caps : Caps) :
    Matches (seq (plus Pattern.alphaDigit) (star (seq Pattern.separator (plus Pattern.alphaDigit)))) w caps ↔
    (∃ l : PyStr × List (Char × PyStr), (AlphaNum l.1 ∧ ∀ x ∈ l.2, IsSep x.1 ∧ AlphaNum x.2) ∧ w = Spelling.localBody l) ∧ caps = [] := by
  have hs : ∀ w caps, Matches (star (seq Pattern.separator (plus Pattern.alphaDigit))) w caps ↔
      (∃ l : List (Char × PyStr), (∀ x ∈ l, IsSep x.1 ∧ AlphaNum x.2) ∧ w = (l.map (fun x => x.1 :: x.2)).flatten) ∧ caps = [] := by
    apply star_iff _ (fun x : Char × PyStr => x.1 :: x.2) (fun x => IsSep x.1 ∧ AlphaNum x.2) (by simp)
    intro w caps
    constructor
    · rintro ⟨w1, w2, c1, c2, rfl, rfl, h1, h2⟩
      rw [separator_iff] at h1; rw [alphaDigits_iff] at h2
      obtain ⟨⟨c, rfl, hc⟩, rfl⟩ := h1
      obtain ⟨h2, rfl⟩ := h2
      exact ⟨⟨(c, w2), ⟨hc, h2⟩, rfl⟩, rfl⟩
    · rintro ⟨⟨x, hx, rfl⟩, rfl⟩
      exact ⟨[x.1], x.2, [], [], rfl, rfl, (separator_iff _ _).2 ⟨⟨_, rfl, hx.1⟩, rfl⟩, (alphaDigits_iff _ _).2 ⟨hx.2, rfl⟩⟩
  constructor
  · rintro ⟨w1, w2, c1, c2, rfl, rfl, h1, h2⟩
    rw [alphaDigits_iff] at h1; rw [hs] at h2
    obtain ⟨h1, rfl⟩ := h1
    obtain ⟨⟨l, hl, rfl⟩, rfl⟩ := h2
    exact ⟨⟨(w1, l), ⟨h1, hl⟩, rfl⟩, rfl⟩
  · rintro ⟨⟨l, ⟨hm, hl⟩, rfl⟩, rfl⟩
    exact ⟨l.1, _, [], [], rfl, rfl, (alphaDigits_iff _ _).2 ⟨hm, rfl⟩, (hs _ _).2 ⟨⟨l.2, hl, rfl⟩, rfl⟩⟩

/-! ### captured groups of a spelling -/

namespace TagSpelling
def valueCaps (gv : Grp) (t : TagSpelling) : Caps := match t.value with
  | none => []
  | some (_, d) => [(gv, d)]
def caps (g gp gv : Grp) (t : TagSpelling) : Caps := (g, t.body) :: (t.valueCaps gv ++ [(gp, t.phase)])
end TagSpelling

namespace Spelling
def optCaps {α : Type} (f : α → Caps) : Option α → Caps
  | none => []
  | some x => f x
def preCaps (t : Option TagSpelling) : Caps := optCaps (TagSpelling.caps .pre .prePhase .preValue) t
def postCaps : Option PostSpelling → Caps
  | none => []
  | some (.implicit d) => [(.postImplicit, d)]
  | some (.tag t) => t.caps .post .postPhase .postValue
def devCaps (t : Option TagSpelling) : Caps := optCaps (TagSpelling.caps .dev .devPhase .devValue) t
def localCaps (l : Option (PyStr × List (Char × PyStr))) : Caps := optCaps (fun l => [(.local_, localBody l)]) l
def epochCaps (e : Option PyStr) : Caps := optCaps (fun d => [(.epoch, d)]) e
def headCaps (e : Option PyStr) (m : PyStr) (l : List PyStr) : Caps := (.release, releaseText m l) :: epochCaps e
def tailCaps (post : Option PostSpelling) (dev : Option TagSpelling) (l : Option (PyStr × List (Char × PyStr))) : Caps :=
  localCaps l ++ devCaps dev ++ postCaps post
def caps (p : Spelling) : Caps := tailCaps p.post p.dev p.local_ ++ preCaps p.pre ++ headCaps p.epoch p.major p.release
end Spelling

/-- A tag in the version pattern. -/
def tagRe (ph : Re) (g gp gv : Grp) : Re :=
  seqs [opt Pattern.separator, group g (seqs [group gp ph, opt (seqs [opt Pattern.separator, group gv Pattern.digits])])]

/-- The value of a tag. -/
def valueRe (gv : Grp) : Re := seqs [opt Pattern.separator, group gv Pattern.digits]

theorem valueRe_iff (gv : Grp) (w : PyStr) (c : Caps) :
    Matches (valueRe gv) w c ↔ ∃ s d, OptSep s ∧ Digits d ∧ w = s ++ d ∧ c = [(gv, d)] := by
  simp only [valueRe, seqs, Matches]
  constructor
  · rintro ⟨w1, w2, c1, c2, rfl, rfl, h1, c', h2, rfl⟩
    have h1' := (optSep_iff w1 c1).1 h1
    rw [digits_iff] at h2
    obtain ⟨h1', rfl⟩ := h1'
    obtain ⟨h2, rfl⟩ := h2
    exact ⟨w1, w2, h1', h2, rfl, rfl⟩
  · rintro ⟨s, d, hs, hd, rfl, rfl⟩
    exact ⟨s, d, [], [(gv, d)], rfl, rfl, (optSep_iff s []).2 ⟨hs, rfl⟩, [], (digits_iff _ _).2 ⟨hd, rfl⟩, rfl⟩

theorem tagRe_iff (ph : Re) (words : List PyStr) (hph : ∀ w c, Matches ph w c ↔ w.map foldCase ∈ words ∧ c = [])
    (g gp gv : Grp) (w : PyStr) (c : Caps) :
    Matches (tagRe ph g gp gv) w c ↔ ∃ t : TagSpelling, t.WF words ∧ w = t.text ∧ c = t.caps g gp gv := by
  constructor
  · rintro ⟨w1, w2, c1, c2, rfl, rfl, h1, c', ⟨w3, w4, c3, c4, rfl, rfl, ⟨c5, h3, rfl⟩, h4⟩, rfl⟩
    obtain ⟨h1', rfl⟩ := (optSep_iff _ _).1 h1
    obtain ⟨h3', rfl⟩ := (hph _ _).1 h3
    rcases h4 with h4 | ⟨rfl, rfl⟩
    · obtain ⟨s, d, hs, hd, rfl, rfl⟩ := (valueRe_iff gv _ _).1 h4
      refine ⟨⟨w1, w3, some (s, d)⟩, ⟨h1', h3', ?_⟩, rfl, rfl⟩
      intro s' d' h
      obtain ⟨rfl, rfl⟩ := h
      exact ⟨hs, hd⟩
    · exact ⟨⟨w1, w3, none⟩, ⟨h1', h3', by simp⟩, rfl, rfl⟩
  · rintro ⟨⟨s, p, v⟩, ⟨hs, hp, hv⟩, rfl, rfl⟩
    refine ⟨s, _, [], _, rfl, (List.append_nil _).symm, (optSep_iff _ _).2 ⟨hs, rfl⟩, _,
      ⟨p, _, [(gp, p)], _, rfl, rfl, ⟨[], (hph _ _).2 ⟨hp, rfl⟩, rfl⟩, ?_⟩, rfl⟩
    cases v with
    | none => exact .inr ⟨rfl, rfl⟩
    | some x =>
      obtain ⟨hs', hd⟩ := hv x.1 x.2 rfl
      exact .inl ((valueRe_iff gv _ _).2 ⟨x.1, x.2, hs', hd, rfl, rfl⟩)

def preRe : Re := tagRe (Pattern.phases Pattern.prePhases) .pre .prePhase .preValue
def postRe : Re := alt (seqs [lit '-', group .postImplicit Pattern.digits])
  (tagRe (Pattern.phases Pattern.postPhases) .post .postPhase .postValue)
def devRe : Re := tagRe (Pattern.phases Pattern.devPhases) .dev .devPhase .devValue
def headRe : Re := seqs [opt (letter 'v'), opt (seqs [group .epoch Pattern.digits, lit '!']), group .release Pattern.releaseNumbers]
def tailRe : Re := seqs [opt postRe, opt devRe, Pattern.local_]
def publicTailRe : Re := seqs [opt postRe, opt devRe]
def versionRe : Re := seqs [headRe, opt preRe, tailRe]
def publicRe : Re := seqs [headRe, opt preRe, publicTailRe]

theorem run_version (st : State) : run Pattern.version st = run versionRe st := by
  simp only [Pattern.version, Pattern.publicVersion, versionRe, headRe, preRe, tailRe, postRe, devRe, tagRe, seqs]
  generalize opt (letter 'v') = x1
  generalize opt (seq (group Grp.epoch Pattern.digits) (lit '!')) = x2
  generalize group Grp.release Pattern.releaseNumbers = x3
  generalize opt (seq (opt Pattern.separator) (group Grp.pre _)) = x4
  generalize opt (alt _ _) = x5
  generalize opt (seq (opt Pattern.separator) (group Grp.dev _)) = x6
  simp only [run, List.flatMap_assoc]

theorem run_public (st : State) : run Pattern.publicVersion st = run publicRe st := by
  simp only [Pattern.publicVersion, publicRe, headRe, preRe, publicTailRe, postRe, devRe, tagRe, seqs]
  generalize opt (letter 'v') = x1
  generalize opt (seq (group Grp.epoch Pattern.digits) (lit '!')) = x2
  generalize group Grp.release Pattern.releaseNumbers = x3
  generalize opt (seq (opt Pattern.separator) (group Grp.pre _)) = x4
  generalize opt (alt _ _) = x5
  generalize opt (seq (opt Pattern.separator) (group Grp.dev _)) = x6
  simp only [run, List.flatMap_assoc]

theorem matches_iff_mem (r : Re) (w : PyStr) (c : Caps) : Matches r w c ↔ ([], c) ∈ run r (w, []) := by
  rw [mem_run]
  constructor
  · intro h; exact ⟨w, c, by simp, by simp, h⟩
  · rintro ⟨w', d, rfl, rfl, h⟩; simpa using h

theorem matches_congr {r r' : Re} (h : ∀ st, run r st = run r' st) (w : PyStr) (c : Caps) : Matches r w c ↔ Matches r' w c := by
  rw [matches_iff_mem, matches_iff_mem, h]

theorem preRe_iff (w : PyStr) (c : Caps) : Matches (opt preRe) w c ↔ ∃ t : Option TagSpelling, (∀ x, t = some x → x.WF preWords) ∧
    w = Spelling.optText TagSpelling.text t ∧ c = Spelling.preCaps t := by
  rw [Matches, preRe, tagRe_iff _ preWords pre_iff]
  constructor
  · rintro (⟨t, ht, rfl, rfl⟩ | ⟨rfl, rfl⟩)
    · exact ⟨some t, by rintro x ⟨⟩; exact ht, rfl, rfl⟩
    · exact ⟨none, by simp, rfl, rfl⟩
  · rintro ⟨t, ht, rfl, rfl⟩
    cases t with
    | none => exact .inr ⟨rfl, rfl⟩
    | some t => exact .inl ⟨t, ht t rfl, rfl, rfl⟩

theorem devRe_iff (w : PyStr) (c : Caps) : Matches (opt devRe) w c ↔ ∃ t : Option TagSpelling, (∀ x, t = some x → x.WF devWords) ∧
    w = Spelling.optText TagSpelling.text t ∧ c = Spelling.devCaps t := by
  rw [Matches, devRe, tagRe_iff _ devWords dev_iff]
  constructor
  · rintro (⟨t, ht, rfl, rfl⟩ | ⟨rfl, rfl⟩)
    · exact ⟨some t, by rintro x ⟨⟩; exact ht, rfl, rfl⟩
    · exact ⟨none, by simp, rfl, rfl⟩
  · rintro ⟨t, ht, rfl, rfl⟩
    cases t with
    | none => exact .inr ⟨rfl, rfl⟩
    | some t => exact .inl ⟨t, ht t rfl, rfl, rfl⟩

theorem postRe_iff (w : PyStr) (c : Caps) : Matches (opt postRe) w c ↔ ∃ t : Option PostSpelling, (∀ x, t = some x → x.WF postWords) ∧
    w = Spelling.optText PostSpelling.text t ∧ c = Spelling.postCaps t := by
  rw [Matches, postRe, Matches, tagRe_iff _ postWords post_iff]
  constructor
  · rintro ((h | ⟨t, ht, rfl, rfl⟩) | ⟨rfl, rfl⟩)
    · obtain ⟨w1, w2, c1, c2, rfl, rfl, h1, c', h2, rfl⟩ := h
      obtain ⟨rfl, rfl⟩ := (lit_iff _ _ _).1 h1
      obtain ⟨h2', rfl⟩ := (digits_iff _ _).1 h2
      exact ⟨some (.implicit w2), by rintro x ⟨⟩; exact h2', rfl, rfl⟩
    · exact ⟨some (.tag t), by rintro x ⟨⟩; exact ht, rfl, rfl⟩
    · exact ⟨none, by simp, rfl, rfl⟩
  · rintro ⟨t, ht, rfl, rfl⟩
    cases t with
    | none => exact .inr ⟨rfl, rfl⟩
    | some t =>
      cases t with
      | implicit d =>
        exact .inl (.inl ⟨['-'], d, [], _, rfl, rfl, (lit_iff _ _ _).2 ⟨rfl, rfl⟩, [], (digits_iff _ _).2 ⟨ht _ rfl, rfl⟩, rfl⟩)
      | tag t => exact .inl (.inr ⟨t, ht _ rfl, rfl, rfl⟩)

theorem localRe_iff (w : PyStr) (c : Caps) : Matches Pattern.local_ w c ↔ ∃ l : Option (PyStr × List (Char × PyStr)),
    (∀ x, l = some x → AlphaNum x.1 ∧ ∀ y ∈ x.2, IsSep y.1 ∧ AlphaNum y.2) ∧
    w = Spelling.localText l ∧ c = Spelling.localCaps l := by
  rw [Pattern.local_, Matches]
  constructor
  · rintro (⟨w1, w2, c1, c2, rfl, rfl, h1, c', h2, rfl⟩ | ⟨rfl, rfl⟩)
    · obtain ⟨rfl, rfl⟩ := (lit_iff _ _ _).1 h1
      obtain ⟨⟨l, hl, rfl⟩, rfl⟩ := (localBody_iff _ _).1 h2
      exact ⟨some l, by rintro x ⟨⟩; exact hl, rfl, rfl⟩
    · exact ⟨none, by simp, rfl, rfl⟩
  · rintro ⟨t, ht, rfl, rfl⟩
    cases t with
    | none => exact .inr ⟨rfl, rfl⟩
    | some l =>
      exact .inl ⟨['+'], _, [], _, rfl, rfl, (lit_iff _ _ _).2 ⟨rfl, rfl⟩, [], (localBody_iff _ _).2 ⟨⟨l, ht l rfl, rfl⟩, rfl⟩, rfl⟩

/-- The upper case letters. -/
theorem upper_mem (c : Char) (h : 'A' ≤ c ∧ c ≤ 'Z') : c ∈ "ABCDEFGHIJKLMNOPQRSTUVWXYZ".toList := by
  obtain ⟨h1, h2⟩ := h
  have h1 : 65 ≤ c.toNat := h1
  have h2 : c.toNat ≤ 90 := h2
  rw [← Char.ofNat_toNat c]
  generalize c.toNat = n at h1 h2
  have : ∀ n < 91, 65 ≤ n → Char.ofNat n ∈ "ABCDEFGHIJKLMNOPQRSTUVWXYZ".toList := by decide
  exact this n (by omega) h1

theorem fold_v (c : Char) : foldCase c = 'v' ↔ c = 'v' ∨ c = 'V' := by
  constructor
  · intro h
    rw [fold_lower] at h
    split at h
    · exact absurd h (by decide)
    split at h
    · exact absurd h (by decide)
    unfold Re.lower at h
    split at h
    · exact absurd h (by decide)
    split at h
    · exact absurd h (by decide)
    split at h
    · rename_i hr
      right
      have : ∀ c ∈ "ABCDEFGHIJKLMNOPQRSTUVWXYZ".toList, Char.ofNat (c.toNat + 32) = 'v' → c = 'V' := by decide
      exact this c (upper_mem c hr) h
    · exact .inl h
  · rintro (rfl | rfl) <;> decide

theorem headRe_iff (w : PyStr) (c : Caps) : Matches headRe w c ↔ ∃ (v : PyStr) (e : Option PyStr) (m : PyStr) (l : List PyStr),
    (v = [] ∨ v = ['v'] ∨ v = ['V']) ∧ (∀ d, e = some d → Digits d) ∧ Digits m ∧ (∀ d ∈ l, Digits d) ∧
    w = v ++ Spelling.epochText e ++ Spelling.releaseText m l ∧ c = Spelling.headCaps e m l := by
  constructor
  · rintro ⟨w1, w2, c1, c2, rfl, rfl, h1, w3, w4, c3, c4, rfl, rfl, h3, c5, h4, rfl⟩
    obtain ⟨⟨m, l, hm, hl, rfl⟩, rfl⟩ := (release_iff _ _).1 h4
    have hv : (w1 = [] ∨ w1 = ['v'] ∨ w1 = ['V']) ∧ c1 = [] := by
      rcases h1 with h1 | ⟨rfl, rfl⟩
      · obtain ⟨x, rfl, hx, rfl⟩ := (letter_iff 'v' (by decide) _ _).1 h1
        rw [fold_v] at hx
        rcases hx with rfl | rfl
        · exact ⟨.inr (.inl rfl), rfl⟩
        · exact ⟨.inr (.inr rfl), rfl⟩
      · exact ⟨.inl rfl, rfl⟩
    obtain ⟨hv, rfl⟩ := hv
    rcases h3 with h3 | ⟨rfl, rfl⟩
    · obtain ⟨w5, w6, c5, c6, rfl, rfl, ⟨c7, h5, rfl⟩, h6⟩ := h3
      obtain ⟨h5', rfl⟩ := (digits_iff _ _).1 h5
      obtain ⟨rfl, rfl⟩ := (lit_iff _ _ _).1 h6
      exact ⟨w1, some w5, m, l, hv, by rintro d ⟨⟩; exact h5', hm, hl, by simp [Spelling.epochText, Spelling.optText], rfl⟩
    · exact ⟨w1, none, m, l, hv, by simp, hm, hl, by simp [Spelling.epochText, Spelling.optText], rfl⟩
  · rintro ⟨v, e, m, l, hv, he, hm, hl, rfl, rfl⟩
    refine ⟨v, _, [], _, List.append_assoc _ _ _, (List.append_nil _).symm, ?_, Spelling.epochText e, Spelling.releaseText m l, Spelling.epochCaps e,
      [(.release, Spelling.releaseText m l)], rfl, rfl, ?_, [], (release_iff _ _).2 ⟨⟨m, l, hm, hl, rfl⟩, rfl⟩, rfl⟩
    · rcases hv with rfl | rfl | rfl
      · exact .inr ⟨rfl, rfl⟩
      · exact .inl ((letter_iff 'v' (by decide) _ _).2 ⟨'v', rfl, by decide, rfl⟩)
      · exact .inl ((letter_iff 'v' (by decide) _ _).2 ⟨'V', rfl, by decide, rfl⟩)
    · cases e with
      | none => exact .inr ⟨rfl, rfl⟩
      | some d =>
        exact .inl ⟨d, ['!'], [(.epoch, d)], [], rfl, rfl, ⟨[], (digits_iff _ _).2 ⟨he d rfl, rfl⟩, rfl⟩, (lit_iff _ _ _).2 ⟨rfl, rfl⟩⟩

theorem tailRe_iff (w : PyStr) (c : Caps) : Matches tailRe w c ↔ ∃ (post : Option PostSpelling) (dev : Option TagSpelling)
    (l : Option (PyStr × List (Char × PyStr))), (∀ x, post = some x → x.WF postWords) ∧ (∀ x, dev = some x → x.WF devWords) ∧
    (∀ x, l = some x → AlphaNum x.1 ∧ ∀ y ∈ x.2, IsSep y.1 ∧ AlphaNum y.2) ∧
    w = Spelling.optText PostSpelling.text post ++ Spelling.optText TagSpelling.text dev ++ Spelling.localText l ∧
    c = Spelling.tailCaps post dev l := by
  constructor
  · rintro ⟨w1, w2, c1, c2, rfl, rfl, h1, w3, w4, c3, c4, rfl, rfl, h3, h4⟩
    obtain ⟨post, hpost, rfl, rfl⟩ := (postRe_iff _ _).1 h1
    obtain ⟨dev, hdev, rfl, rfl⟩ := (devRe_iff _ _).1 h3
    obtain ⟨l, hl, rfl, rfl⟩ := (localRe_iff _ _).1 h4
    exact ⟨post, dev, l, hpost, hdev, hl, by simp, rfl⟩
  · rintro ⟨post, dev, l, hpost, hdev, hl, rfl, rfl⟩
    exact ⟨_, _, _, _, List.append_assoc _ _ _, rfl, (postRe_iff _ _).2 ⟨post, hpost, rfl, rfl⟩, _, _, _, _, rfl, rfl,
      (devRe_iff _ _).2 ⟨dev, hdev, rfl, rfl⟩, (localRe_iff _ _).2 ⟨l, hl, rfl, rfl⟩⟩

/-- The version pattern matches exactly the texts of spellings. -/
theorem version_iff (w : PyStr) (c : Caps) : Matches Pattern.version w c ↔ ∃ p : Spelling, p.WF ∧ w = p.text ∧ c = p.caps := by
  rw [matches_congr run_version]
  constructor
  · rintro ⟨w1, w2, c1, c2, rfl, rfl, h1, w3, w4, c3, c4, rfl, rfl, h3, h4⟩
    obtain ⟨v, e, m, l, hv, he, hm, hl, rfl, rfl⟩ := (headRe_iff _ _).1 h1
    obtain ⟨pre, hpre, rfl, rfl⟩ := (preRe_iff _ _).1 h3
    obtain ⟨post, dev, loc, hpost, hdev, hloc, rfl, rfl⟩ := (tailRe_iff _ _).1 h4
    exact ⟨⟨v, e, m, l, pre, post, dev, loc⟩, ⟨hv, he, hm, hl, hpre, hpost, hdev, hloc⟩, by simp [Spelling.text], rfl⟩
  · rintro ⟨⟨v, e, m, l, pre, post, dev, loc⟩, ⟨hv, he, hm, hl, hpre, hpost, hdev, hloc⟩, rfl, rfl⟩
    exact ⟨v ++ Spelling.epochText e ++ Spelling.releaseText m l, Spelling.optText TagSpelling.text pre ++
        (Spelling.optText PostSpelling.text post ++ Spelling.optText TagSpelling.text dev ++ Spelling.localText loc),
      Spelling.headCaps e m l, Spelling.tailCaps post dev loc ++ Spelling.preCaps pre, by simp [Spelling.text], rfl,
      (headRe_iff _ _).2 ⟨v, e, m, l, hv, he, hm, hl, rfl, rfl⟩, _, _, _, _, rfl, rfl,
      (preRe_iff _ _).2 ⟨pre, hpre, rfl, rfl⟩, (tailRe_iff _ _).2 ⟨post, dev, loc, hpost, hdev, hloc, rfl, rfl⟩⟩

/-- The public version pattern matches exactly the texts of spellings without local segment. -/
theorem public_iff (w : PyStr) : (∃ c, Matches Pattern.publicVersion w c) ↔ ∃ p : Spelling, p.WF ∧ p.local_ = none ∧ w = p.text := by
  simp only [matches_congr run_public]
  constructor
  · rintro ⟨_, w1, w2, c1, c2, rfl, rfl, h1, w3, w4, c3, c4, rfl, rfl, h3, w5, w6, c5, c6, rfl, rfl, h5, h6⟩
    obtain ⟨v, e, m, l, hv, he, hm, hl, rfl, rfl⟩ := (headRe_iff _ _).1 h1
    obtain ⟨pre, hpre, rfl, rfl⟩ := (preRe_iff _ _).1 h3
    obtain ⟨post, hpost, rfl, rfl⟩ := (postRe_iff _ _).1 h5
    obtain ⟨dev, hdev, rfl, rfl⟩ := (devRe_iff _ _).1 h6
    exact ⟨⟨v, e, m, l, pre, post, dev, none⟩, ⟨hv, he, hm, hl, hpre, hpost, hdev, by simp⟩, rfl,
      by simp [Spelling.text, Spelling.localText, Spelling.optText]⟩
  · rintro ⟨⟨v, e, m, l, pre, post, dev, loc⟩, ⟨hv, he, hm, hl, hpre, hpost, hdev, hloc⟩, rfl, rfl⟩
    exact ⟨_, v ++ Spelling.epochText e ++ Spelling.releaseText m l, Spelling.optText TagSpelling.text pre ++
        (Spelling.optText PostSpelling.text post ++ Spelling.optText TagSpelling.text dev),
      Spelling.headCaps e m l, _, by simp [Spelling.text, Spelling.localText, Spelling.optText], rfl,
      (headRe_iff _ _).2 ⟨v, e, m, l, hv, he, hm, hl, rfl, rfl⟩, _, _, _, _, rfl, rfl,
      (preRe_iff _ _).2 ⟨pre, hpre, rfl, rfl⟩, _, _, _, _, rfl, rfl, (postRe_iff _ _).2 ⟨post, hpost, rfl, rfl⟩,
      (devRe_iff _ _).2 ⟨dev, hdev, rfl, rfl⟩⟩

/-! ### the order of the matches -/

/-- The first way to match everything. -/
def firstFull (r : Re) (st : State) : Option State := (run r st).find? (fun st => st.1.isEmpty)

theorem firstFull_seq {a b : Re} {st x : State} (h : firstFull (seq a b) st = some x) :
    ∃ st' ∈ run a st, firstFull b st' = some x := by
  unfold firstFull at h
  rw [run, List.find?_flatMap] at h
  exact List.exists_of_findSome?_eq_some h

theorem firstFull_opt {a b : Re} {st x : State} (h : firstFull (seq (opt a) b) st = some x) :
    (firstFull (seq a b) st = some x) ∨ (firstFull b st = some x ∧ firstFull (seq a b) st = none) := by
  unfold firstFull at h ⊢
  simp only [run, List.flatMap_append, List.find?_append, List.flatMap_cons, List.flatMap_nil, List.append_nil] at h ⊢
  cases hf : ((run a st).flatMap (run b)).find? (fun st => st.1.isEmpty) with
  | none => right; rw [hf] at h; exact ⟨h, rfl⟩
  | some y => left; rw [hf] at h; exact h

theorem firstFull_sound {r : Re} {s : PyStr} {c : Caps} {x : State} (h : firstFull r (s, c) = some x) :
    ∃ d, x = ([], d ++ c) ∧ Matches r s d := by
  unfold firstFull at h
  have hm := List.mem_of_find?_eq_some h
  have he := List.find?_some h
  obtain ⟨s', c'⟩ := x
  simp only [List.isEmpty_iff] at he
  subst he
  obtain ⟨w, d, rfl, rfl, m⟩ := run_sound r _ _ _ _ hm
  exact ⟨d, rfl, by simpa using m⟩

theorem firstFull_none {r : Re} {s : PyStr} {c : Caps} (h : firstFull r (s, c) = none) (d : Caps) : ¬ Matches r s d := by
  intro m
  unfold firstFull at h
  rw [List.find?_eq_none] at h
  have := run_complete r s d m [] c
  rw [List.append_nil] at this
  exact h _ this rfl

theorem findSome_flatMap {α β γ : Type} (f : β → Option γ) (g : α → List β) (l : List α) :
    (l.flatMap g).findSome? f = l.findSome? (fun a => (g a).findSome? f) := by
  induction l with
  | nil => rfl
  | cons a l ih =>
    rw [List.flatMap_cons, List.findSome?_append, ih, List.findSome?_cons]
    cases (g a).findSome? f <;> rfl

/-- The value of a tag is matched if that is possible. -/
theorem firstFull_tag {ph : Re} {g gp gv : Grp} {b : Re} {s : PyStr} {c : Caps} {x : State}
    (h : firstFull (seq (tagRe ph g gp gv) b) (s, c) = some x) : ∃ sep phase rest cp,
      s = sep ++ phase ++ rest ∧ OptSep sep ∧ Matches ph phase cp ∧
      ((∃ s' d rest', rest = s' ++ d ++ rest' ∧ OptSep s' ∧ Digits d ∧
          firstFull b (rest', (g, phase ++ (s' ++ d)) :: (gv, d) :: (gp, phase) :: (cp ++ c)) = some x) ∨
        (firstFull b (rest, (g, phase) :: (gp, phase) :: (cp ++ c)) = some x ∧
          ∀ s' d rest', rest = s' ++ d ++ rest' → OptSep s' → Digits d → ∀ e, ¬ Matches b rest' e)) := by
  have h1 : firstFull (seq (opt Pattern.separator) (seq (group g (seq (group gp ph) (opt (valueRe gv)))) b)) (s, c) = some x := by
    unfold firstFull at h ⊢
    simp only [tagRe, valueRe, seqs, run, List.flatMap_assoc] at h ⊢
    exact h
  obtain ⟨⟨s2, c2⟩, h2, h3⟩ := firstFull_seq h1
  obtain ⟨sep, d2, rfl, rfl, m2⟩ := run_sound _ _ _ _ _ h2
  obtain ⟨hsep, rfl⟩ := (optSep_iff _ _).1 m2
  unfold firstFull at h3
  rw [run, List.find?_flatMap, run, run, List.findSome?_map, findSome_flatMap] at h3
  obtain ⟨⟨s4, c4⟩, h4, h5⟩ := List.exists_of_findSome?_eq_some h3
  obtain ⟨phase, d3, rfl, rfl, cp, m3, rfl⟩ := run_sound _ _ _ _ _ h4
  refine ⟨sep, phase, s4, cp, by simp, hsep, m3, ?_⟩
  rw [run, List.findSome?_append] at h5
  cases hf : (run (valueRe gv) (s4, (gp, phase) :: cp ++ ([] ++ c))).findSome? _ with
  | some y =>
    rw [hf] at h5
    obtain rfl : y = x := by simpa using h5
    obtain ⟨⟨s6, c6⟩, h6, h7⟩ := List.exists_of_findSome?_eq_some hf
    obtain ⟨w7, d7, rfl, rfl, m7⟩ := run_sound _ _ _ _ _ h6
    obtain ⟨s', d, hs', hd, rfl, rfl⟩ := (valueRe_iff _ _ _).1 m7
    refine .inl ⟨s', d, s6, rfl, hs', hd, ?_⟩
    simp only [Function.comp] at h7
    unfold firstFull
    rw [← h7]
    have e : List.take (((phase ++ (s' ++ d ++ s6)).length) - s6.length) (phase ++ (s' ++ d ++ s6)) = phase ++ (s' ++ d) := by
      have : phase ++ (s' ++ d ++ s6) = (phase ++ (s' ++ d)) ++ s6 := by simp
      rw [this, List.length_append, Nat.add_sub_cancel, List.take_left]
    rw [e]
    simp
  | none =>
    rw [hf] at h5
    right
    constructor
    · simp only [Option.none_or, List.findSome?_cons, List.findSome?_nil, Function.comp] at h5
      have e : List.take (((phase ++ s4).length) - s4.length) (phase ++ s4) = phase := by
        rw [List.length_append, Nat.add_sub_cancel, List.take_left]
      rw [e] at h5
      unfold firstFull
      split at h5
      · rename_i heq
        rw [← h5, ← heq]
        simp
      · cases h5
    · rintro s' d rest' rfl hs' hd e' m'
      rw [List.findSome?_eq_none_iff] at hf
      have hmem := run_complete (valueRe gv) (s' ++ d) [(gv, d)] ((valueRe_iff _ _ _).2 ⟨s', d, hs', hd, rfl, rfl⟩) rest' ((gp, phase) :: cp ++ ([] ++ c))
      have := hf _ hmem
      exact firstFull_none this e' m'

/-- What `VERSION.fullmatch` returns is a spelling in which a pre tag without value is not followed by an implicit post
release. -/
theorem fullmatch_version {s : PyStr} {c : Caps} (h : fullmatch Pattern.version s = some c) :
    ∃ p : Spelling, p.WF ∧ p.Greedy ∧ s = p.text ∧ c = p.caps := by
  unfold fullmatch at h
  rw [run_version, Option.map_eq_some_iff] at h
  obtain ⟨x, hx, rfl⟩ := h
  obtain ⟨⟨s1, c1⟩, h1, hx⟩ := firstFull_seq (a := headRe) (b := seq (opt preRe) tailRe) hx
  obtain ⟨w1, d1, rfl, rfl, m1⟩ := run_sound _ _ _ _ _ h1
  obtain ⟨v, e, m, l, hv, he, hm, hl, rfl, rfl⟩ := (headRe_iff _ _).1 m1
  rcases firstFull_opt hx with hx | ⟨hx, -⟩
  · obtain ⟨sep, phase, rest, cp, rfl, hsep, mp, h2⟩ := firstFull_tag hx
    obtain ⟨hp, rfl⟩ := (pre_iff _ _).1 mp
    rcases h2 with ⟨s', d, rest', rfl, hs', hd, h2⟩ | ⟨h2, hno⟩
    · obtain ⟨d, rfl, m2⟩ := firstFull_sound h2
      obtain ⟨post, dev, loc, hpost, hdev, hloc, rfl, rfl⟩ := (tailRe_iff _ _).1 m2
      refine ⟨⟨v, e, m, l, some ⟨sep, phase, some (s', d)⟩, post, dev, loc⟩, ⟨hv, he, hm, hl, ?_, hpost, hdev, hloc⟩, ?_, ?_, ?_⟩
      · rintro x ⟨⟩
        exact ⟨hsep, hp, by rintro _ _ ⟨⟩; exact ⟨hs', hd⟩⟩
      · rintro t d' ⟨⟩ - ⟨⟩
      · simp [Spelling.text, Spelling.optText, TagSpelling.text, TagSpelling.body, TagSpelling.valueText]
      · simp [Spelling.caps, Spelling.preCaps, Spelling.optCaps, TagSpelling.caps, TagSpelling.valueCaps, TagSpelling.body, TagSpelling.valueText]
    · obtain ⟨d, rfl, m2⟩ := firstFull_sound h2
      obtain ⟨post, dev, loc, hpost, hdev, hloc, rfl, rfl⟩ := (tailRe_iff _ _).1 m2
      refine ⟨⟨v, e, m, l, some ⟨sep, phase, none⟩, post, dev, loc⟩, ⟨hv, he, hm, hl, ?_, hpost, hdev, hloc⟩, ?_, ?_, ?_⟩
      · rintro x ⟨⟩
        exact ⟨hsep, hp, by rintro _ _ ⟨⟩⟩
      · rintro t d' - hpost' -
        simp only at hpost'
        subst hpost'
        exact hno ['-'] d' _ (by simp [Spelling.optText, PostSpelling.text]) (.inr ⟨'-', rfl, by simp [IsSep]⟩) (hpost _ rfl) _
          ((tailRe_iff _ _).2 ⟨none, dev, loc, by simp, hdev, hloc, rfl, rfl⟩)
      · simp [Spelling.text, Spelling.optText, TagSpelling.text, TagSpelling.body, TagSpelling.valueText]
      · simp [Spelling.caps, Spelling.preCaps, Spelling.optCaps, TagSpelling.caps, TagSpelling.valueCaps, TagSpelling.body, TagSpelling.valueText]
  · obtain ⟨d, rfl, m2⟩ := firstFull_sound hx
    obtain ⟨post, dev, loc, hpost, hdev, hloc, rfl, rfl⟩ := (tailRe_iff _ _).1 m2
    exact ⟨⟨v, e, m, l, none, post, dev, loc⟩, ⟨hv, he, hm, hl, by simp, hpost, hdev, hloc⟩, (by intro t d h; cases h),
      by simp [Spelling.text, Spelling.optText], by simp [Spelling.caps, Spelling.preCaps, Spelling.optCaps]⟩

end Verif
