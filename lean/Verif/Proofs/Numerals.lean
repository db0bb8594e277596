import Verif.Spec.Numerals
import Verif.Proofs.Printing
import Verif.Proofs.SpecParsing
/-!
# The numerals of spelled versions
-/

namespace Verif

/-- The rows of digits. -/
def runs (s : PyStr) : List PyStr := (s.splitOnP (fun c => !decide (IsDigit c))).filter (fun d => decide (Digits d))

/-- The string does not begin with a digit. -/
def HeadND (s : PyStr) : Prop := ∀ c r, s = c :: r → ¬ IsDigit c

theorem headND_nil : HeadND [] := fun _ _ h => by cases h

theorem headND_append {a b : PyStr} (ha : HeadND a) (hb : HeadND b) : HeadND (a ++ b) := by
  cases a with
  | nil => exact hb
  | cons c a =>
    intro c' r e
    cases e
    exact ha c a rfl

theorem not_digits_nil : ¬ Digits [] := fun h => h.1 rfl

theorem runs_nil : runs [] = [] := by decide

theorem runs_cons {c : Char} (hc : ¬ IsDigit c) (b : PyStr) : runs (c :: b) = runs b := by
  unfold runs
  have : ((c :: b).splitOnP (fun c => !decide (IsDigit c))) = [] :: b.splitOnP (fun c => !decide (IsDigit c)) := by
    have := List.splitOnP_append_cons_of_forall_mem (p := fun c => !decide (IsDigit c)) (xs := []) (by simp) c (by simp [hc]) b
    simpa using this
  rw [this, List.filter_cons_of_neg]
  simp [not_digits_nil]

theorem runs_skip {a : PyStr} (ha : ∀ c ∈ a, ¬ IsDigit c) (b : PyStr) : runs (a ++ b) = runs b := by
  induction a with
  | nil => rfl
  | cons c a ih =>
    rw [List.cons_append, runs_cons (ha c (by simp)), ih (fun x hx => ha x (List.mem_cons_of_mem _ hx))]

theorem runs_digits {d : PyStr} (hd : Digits d) {b : PyStr} (hb : HeadND b) : runs (d ++ b) = d :: runs b := by
  have hp : ∀ x ∈ d, (!decide (IsDigit x)) = false := fun x hx => by simp [hd.2 x hx]
  cases b with
  | nil =>
    rw [List.append_nil, runs_nil]
    unfold runs
    rw [List.splitOnP_eq_singleton hp, List.filter_cons_of_pos (by simpa using hd)]
    rfl
  | cons c b =>
    have hc := hb c b rfl
    rw [runs_cons hc]
    unfold runs
    rw [List.splitOnP_append_cons_of_forall_mem hp c (by simp [hc]) b, List.filter_cons_of_pos (by simpa using hd)]

/-! ### the parts of a spelling -/

theorem sep_not_digit {c : Char} (h : IsSep c) : ¬ IsDigit c := by
  rcases h with rfl | rfl | rfl <;> decide

theorem optSep_not_digit {s : PyStr} (h : OptSep s) : ∀ c ∈ s, ¬ IsDigit c := by
  rcases h with rfl | ⟨c, rfl, hc⟩
  · simp
  · intro x hx
    rw [List.mem_singleton] at hx
    exact hx ▸ sep_not_digit hc

theorem phase_not_digit {words : List PyStr} (hw : Lower words) {t : TagSpelling} (ht : t.WF words) : t.phase ≠ [] ∧ ∀ c ∈ t.phase, ¬ IsDigit c := by
  obtain ⟨h1, h2⟩ := hw _ ht.phase
  refine ⟨by rintro h; rw [h] at h1; exact h1 rfl, ?_⟩
  intro c hc hd
  have := h2 (foldCase c) (List.mem_map_of_mem hc)
  have key : ∀ x ∈ "abcdefghijklmnopqrstuvwxyz".toList, 'a' ≤ x ∧ x ≤ 'z' := by decide
  exact digit_not_letter c hd (key _ this)

/-- The numeral of a tag. -/
def TagSpelling.numerals (t : TagSpelling) : List PyStr := (t.value.map (·.2)).toList

theorem runs_tag {words : List PyStr} (hw : Lower words) {t : TagSpelling} (ht : t.WF words) {b : PyStr} (hb : HeadND b) :
    runs (t.text ++ b) = t.numerals ++ runs b ∧ HeadND (t.text ++ b) := by
  obtain ⟨h1, h2⟩ := phase_not_digit hw ht
  have h3 := optSep_not_digit ht.sep
  obtain ⟨s, ph, v⟩ := t
  have e : (TagSpelling.mk s ph v).text ++ b = (s ++ ph) ++ ((TagSpelling.mk s ph v).valueText ++ b) := by
    simp [TagSpelling.text, TagSpelling.body]
  have h4 : ∀ c ∈ s ++ ph, ¬ IsDigit c := by
    intro c hc
    rcases List.mem_append.1 hc with hc | hc
    · exact h3 c hc
    · exact h2 c hc
  rw [e, runs_skip h4]
  constructor
  · cases v with
    | none => rfl
    | some x =>
      obtain ⟨h5, h6⟩ := ht.value x.1 x.2 rfl
      simp only [TagSpelling.valueText, TagSpelling.numerals, List.append_assoc]
      rw [runs_skip (optSep_not_digit h5), runs_digits h6 hb]
      rfl
  · intro c r hcr
    have : s ++ ph ≠ [] := by simp only [ne_eq, List.append_eq_nil_iff]; exact fun h => h1 h.2
    obtain ⟨c', r', hr⟩ := List.exists_cons_of_ne_nil this
    rw [hr] at hcr h4
    cases hcr
    exact h4 _ (by simp)

/-- The numerals of a post release. -/
def PostSpelling.numerals : PostSpelling → List PyStr
  | .implicit d => [d]
  | .tag t => t.numerals

theorem runs_post {t : PostSpelling} (ht : t.WF postWords) {b : PyStr} (hb : HeadND b) :
    runs (t.text ++ b) = t.numerals ++ runs b ∧ HeadND (t.text ++ b) := by
  cases t with
  | tag t => exact runs_tag postWords_lower ht hb
  | implicit d =>
    have hd : Digits d := ht
    simp only [PostSpelling.text, PostSpelling.numerals, List.cons_append]
    rw [runs_cons (by decide), runs_digits hd hb]
    refine ⟨rfl, ?_⟩
    intro c r e
    cases e
    decide

theorem runs_opt {α : Type} (f : α → PyStr) (g : α → List PyStr) (o : Option α)
    (h : ∀ x, o = some x → ∀ b, HeadND b → runs (f x ++ b) = g x ++ runs b ∧ HeadND (f x ++ b)) {b : PyStr} (hb : HeadND b) :
    runs (Spelling.optText f o ++ b) = o.toList.flatMap g ++ runs b ∧ HeadND (Spelling.optText f o ++ b) := by
  cases o with
  | none => exact ⟨rfl, hb⟩
  | some x =>
    obtain ⟨h1, h2⟩ := h x rfl b hb
    refine ⟨?_, h2⟩
    simpa [Spelling.optText] using h1

theorem runs_release {l : List PyStr} (hl : ∀ d ∈ l, Digits d) {b : PyStr} (hb : HeadND b) :
    runs ((l.map ('.' :: ·)).flatten ++ b) = l ++ runs b ∧ HeadND ((l.map ('.' :: ·)).flatten ++ b) := by
  induction l with
  | nil => exact ⟨rfl, hb⟩
  | cons d l ih =>
    obtain ⟨h1, h2⟩ := ih (fun x hx => hl x (List.mem_cons_of_mem _ hx))
    rw [List.map_cons, List.flatten_cons, List.append_assoc, List.cons_append]
    rw [runs_cons (by decide), runs_digits (hl d (by simp)) h2, h1]
    refine ⟨rfl, ?_⟩
    intro c r e
    cases e
    decide

namespace Spelling

/-- The numerals of a spelling, except for the local segment. -/
def publicNumerals (p : Spelling) : List PyStr :=
  p.epoch.toList ++ (p.major :: p.release) ++ p.pre.toList.flatMap TagSpelling.numerals ++ p.post.toList.flatMap PostSpelling.numerals
    ++ p.dev.toList.flatMap TagSpelling.numerals

/-- The parts of the local segment. -/
def localParts (p : Spelling) : List PyStr := p.local_.toList.flatMap (fun l => l.1 :: l.2.map (·.2))

/-- The string without the local segment. -/
def publicText (p : Spelling) : PyStr := ({ p with local_ := none } : Spelling).text

theorem text_public (p : Spelling) : p.text = p.publicText ++ localText p.local_ := by
  simp [publicText, text, localText, optText]

theorem runs_text {p : Spelling} (hp : p.WF) {b : PyStr} (hb : HeadND b) : runs (p.publicText ++ b) = p.publicNumerals ++ runs b := by
  have e : p.publicText ++ b = p.v ++ (epochText p.epoch ++ (p.major ++ ((p.release.map ('.' :: ·)).flatten ++
      (optText TagSpelling.text p.pre ++ (optText PostSpelling.text p.post ++ (optText TagSpelling.text p.dev ++ b)))))) := by
    simp [publicText, text, localText, optText, releaseText]
  obtain ⟨h1, h1'⟩ := runs_opt TagSpelling.text TagSpelling.numerals p.dev (fun x hx b hb => runs_tag devWords_lower (hp.dev x hx) hb) hb
  obtain ⟨h2, h2'⟩ := runs_opt PostSpelling.text PostSpelling.numerals p.post (fun x hx b hb => runs_post (hp.post x hx) hb) h1'
  obtain ⟨h3, h3'⟩ := runs_opt TagSpelling.text TagSpelling.numerals p.pre (fun x hx b hb => runs_tag preWords_lower (hp.pre x hx) hb) h2'
  obtain ⟨h4, h4'⟩ := runs_release hp.release h3'
  have h5 := runs_digits hp.major h4'
  have hv : ∀ c ∈ p.v, ¬ IsDigit c := by
    rcases hp.v with h | h | h <;> rw [h] <;> decide
  rw [e, runs_skip hv]
  unfold publicNumerals
  cases he : p.epoch with
  | none =>
    have e0 : epochText none = [] := rfl
    rw [e0, List.nil_append, h5, h4, h3, h2, h1]
    simp
  | some d =>
    have e0 : epochText (some d) = d ++ ['!'] := rfl
    rw [e0, List.append_assoc, runs_digits (hp.epoch d he), List.cons_append, runs_cons (by decide), List.nil_append, h5, h4, h3, h2, h1]
    · simp
    · intro c r e
      cases e
      decide

end Spelling

theorem public_no_plus {p : Spelling} (hp : p.WF) : ∀ c ∈ p.publicText, c ≠ '+' := by
  intro c hc
  have hq : ({ p with local_ := none } : Spelling).WF := ⟨hp.v, hp.epoch, hp.major, hp.release, hp.pre, hp.post, hp.dev, by rintro _ ⟨⟩⟩
  exact (Specifier.public_chars hq rfl hc).2

theorem takeWhile_all {p : Char → Bool} {a : PyStr} (ha : ∀ c ∈ a, p c = true) (b : PyStr) (hb : ∀ c r, b = c :: r → p c = false) :
    (a ++ b).takeWhile p = a ∧ (a ++ b).dropWhile p = b := by
  induction a with
  | nil =>
    cases b with
    | nil => exact ⟨rfl, rfl⟩
    | cons c b => simp [hb c b rfl]
  | cons x a ih =>
    obtain ⟨h1, h2⟩ := ih (fun c hc => ha c (List.mem_cons_of_mem _ hc))
    have hx := ha x (by simp)
    simp [hx, h1, h2]

theorem splitOnP_parts (p : Char → Bool) (l : List (Char × PyStr)) : ∀ (a : PyStr), (∀ x ∈ a, p x = false) →
    (∀ y ∈ l, p y.1 = true ∧ ∀ x ∈ y.2, p x = false) →
    (a ++ (l.map (fun x => x.1 :: x.2)).flatten).splitOnP p = a :: l.map (·.2) := by
  induction l with
  | nil =>
    intro a ha _
    rw [List.map_nil, List.flatten_nil, List.append_nil, List.splitOnP_eq_singleton ha]
    rfl
  | cons y l ih =>
    intro a ha hl
    obtain ⟨h1, h2⟩ := hl y (by simp)
    rw [List.map_cons, List.flatten_cons, List.cons_append, List.splitOnP_append_cons_of_forall_mem ha _ h1,
      ih y.2 h2 (fun z hz => hl z (List.mem_cons_of_mem _ hz))]
    rfl

/-- The numerals of the text, after an operator, are those of the spelling. -/
theorem numerals_text {p : Spelling} (hp : p.WF) {o : PyStr} (ho : ∀ c ∈ o, IsOpChar c) :
    numerals (o ++ p.text) = p.publicNumerals ++ p.localParts.filter (fun d => decide (Digits d)) := by
  have hop : ∀ c ∈ o, ¬ IsDigit c ∧ c ≠ '+' := by
    intro c hc
    refine ⟨fun h => opChar_not_digit c h (ho c hc), ?_⟩
    rintro rfl
    exact absurd (ho _ hc) (by decide)
  have hpub : ∀ c ∈ o ++ p.publicText, (fun c => decide (c ≠ '+')) c = true := by
    intro c hc
    rcases List.mem_append.1 hc with hc | hc
    · simpa using (hop c hc).2
    · simpa using public_no_plus hp c hc
  obtain ⟨h1, h2⟩ := takeWhile_all hpub (Spelling.localText p.local_) (by
    intro c r h
    cases hl : p.local_ with
    | none => rw [hl] at h; cases h
    | some l => rw [hl] at h; cases h; decide)
  have e : o ++ p.text = (o ++ p.publicText) ++ Spelling.localText p.local_ := by rw [Spelling.text_public, List.append_assoc]
  unfold numerals
  rw [e, h1, h2, List.filter_append]
  congr 1
  · have := Spelling.runs_text hp headND_nil
    rw [List.append_nil, runs_nil, List.append_nil] at this
    rw [← this, ← runs_skip (fun c hc => (hop c hc).1)]
    rfl
  · cases hl : p.local_ with
    | none =>
      simp only [Spelling.localText, Spelling.optText, Spelling.localParts, hl]
      decide
    | some l =>
      obtain ⟨g1, g2⟩ := hp.local_ l hl
      simp only [Spelling.localText, Spelling.optText, Spelling.localParts, hl, Option.toList_some, List.flatMap_cons, List.flatMap_nil, List.append_nil,
        List.drop_succ_cons, List.drop_zero]
      congr 1
      apply splitOnP_parts
      · intro x hx
        simpa using alnum_not_sep x (g1.2 x hx)
      · intro y hy
        obtain ⟨k1, k2⟩ := g2 y hy
        exact ⟨by simpa using k1, fun x hx => by simpa using alnum_not_sep x (k2.2 x hx)⟩

end Verif
