import Verif.Proofs.Engine
/-! # Linear bounds on the steps of the engine, for each pattern -/

namespace Verif.Re

/-- The literal dot. -/
def isDot (c : Char) : Bool := decide (c = '.')

theorem isDigit_not_alpha {c : Char} (h : isDigit c = true) : isAlpha c = false := by
  simp only [isDigit, decide_eq_true_eq] at h
  have h1 : c ≠ 'İ' := by rintro rfl; exact absurd h.2 (by decide)
  have h2 : c ≠ 'K' := by rintro rfl; exact absurd h.2 (by decide)
  have h3 : ¬ ('A' ≤ c ∧ c ≤ 'Z') := fun e => absurd (Char.le_trans e.1 h.2) (by decide)
  have h4 : c ≠ 'ı' := by rintro rfl; exact absurd h.2 (by decide)
  have h5 : c ≠ 'ſ' := by rintro rfl; exact absurd h.2 (by decide)
  have h6 : ¬ ('a' ≤ c ∧ c ≤ 'z') := fun e => absurd (Char.le_trans e.1 h.2) (by decide)
  simp only [isAlpha, lower, h1, h2, h3, h4, h5, h6, if_false]
  simp

theorem isSeparator_not_alpha {c : Char} (h : isSeparator c = true) : isAlpha c = false := by
  simp only [isSeparator, Bool.or_eq_true, decide_eq_true_eq] at h
  rcases h with (rfl | rfl) | rfl <;> decide

theorem isSeparator_not_digit {c : Char} (h : isSeparator c = true) : isDigit c = false := by
  simp only [isSeparator, Bool.or_eq_true, decide_eq_true_eq] at h
  rcases h with (rfl | rfl) | rfl <;> decide

theorem letter_alpha {l c : Char} (hl : 'a' ≤ l ∧ l ≤ 'z') (h : starts (letter l) c = true) : isAlpha c = true := by
  simp only [letter, starts, Bool.or_eq_true, Bool.and_eq_true, decide_eq_true_eq] at h
  simp only [isAlpha, Bool.or_eq_true, decide_eq_true_eq]
  rcases h with (h | h) | h
  · exact Or.inl (Or.inl (by rw [h]; exact hl))
  · exact Or.inl (Or.inr h.2)
  · exact Or.inr h.2

theorem seqs_first {c : Char} : ∀ {l : List Re}, starts (seqs l) c = true → ∃ r ∈ l, starts r c = true
  | [], h => by simp [seqs, starts] at h
  | [a], h => ⟨a, by simp, h⟩
  | a :: b :: l, h => by
    simp only [seqs, starts, Bool.or_eq_true, Bool.and_eq_true] at h
    rcases h with h | h
    · exact ⟨a, by simp, h⟩
    · obtain ⟨r, hr, hc⟩ := seqs_first h.2
      exact ⟨r, by simp at hr ⊢; tauto, hc⟩

theorem alts_first {c : Char} : ∀ {l : List Re}, starts (alts l) c = true → ∃ r ∈ l, starts r c = true
  | [], h => by simp [alts, starts] at h
  | [a], h => ⟨a, by simp, h⟩
  | a :: b :: l, h => by
    simp only [alts, starts, Bool.or_eq_true] at h
    rcases h with h | h
    · exact ⟨a, by simp, h⟩
    · obtain ⟨r, hr, hc⟩ := alts_first h
      exact ⟨r, by simp at hr ⊢; tauto, hc⟩

theorem phases_alpha {l : List String} (hl : ∀ w ∈ l, ∀ x ∈ w.toList, 'a' ≤ x ∧ x ≤ 'z') {c : Char}
    (h : starts (Pattern.phases l) c = true) : isAlpha c = true := by
  obtain ⟨r, hr, hc⟩ := alts_first h
  obtain ⟨w, hw, rfl⟩ := List.mem_map.1 hr
  obtain ⟨r, hr, hc⟩ := seqs_first hc
  obtain ⟨x, hx, rfl⟩ := List.mem_map.1 hr
  exact letter_alpha (hl w hw x hx) hc

/-! ## Continuations that give up at once where a number goes on -/

structure Good (k : PyStr → Nat) where
  linear : Linear k
  digit : Quick (Starts isDigit) k
  dot : Quick (Starts₂ isDot isDigit) k

def Quick.add {P : PyStr → Prop} {k k' : PyStr → Nat} : Quick P k → Quick P k' → Quick P (fun s => k s + k' s + 1)
  | ⟨c, h⟩, ⟨c', h'⟩ => ⟨c + c' + 1, fun s hs => by have := h s hs; have := h' s hs; show k s + k' s + 1 ≤ _; omega⟩

def Quick.succ {P : PyStr → Prop} {k : PyStr → Nat} : Quick P k → Quick P (fun s => k s + 1)
  | ⟨c, h⟩ => ⟨c + 1, fun s hs => Nat.succ_le_succ (h s hs)⟩

def Quick.blocked {P : PyStr → Prop} {k : PyStr → Nat} {r : Re} (hb : ∀ s, P s → Blocked (starts r) s) :
    Quick P k → Quick P (cost r k)
  | ⟨c, h⟩ => ⟨weight r + empties r * c, fun s hs =>
      (cost_blocked r k s (hb s hs)).trans (Nat.add_le_add_left (Nat.mul_le_mul_left _ (h s hs)) _)⟩

def Quick.blocked' {P : PyStr → Prop} {k : PyStr → Nat} {r : Re} (hb : ∀ s, P s → Blocked (starts r) s) (he : empties r = 0) :
    Quick P (cost r k) :=
  ⟨weight r, fun s hs => (cost_blocked r k s (hb s hs)).trans (by simp [he])⟩

theorem blocked_digit {f : Char → Bool} (h : ∀ c, f c = true → isDigit c = false) : ∀ s, Starts isDigit s → Blocked f s
  | c :: s, hs => by
    show f c = false
    cases hf : f c
    · rfl
    · have := h c hf
      rw [show isDigit c = true from hs] at this
      cases this

theorem blocked_dot {f : Char → Bool} (h : ∀ c, f c = true → isDot c = false) : ∀ s, Starts₂ isDot isDigit s → Blocked f s
  | c :: d :: s, hs => by
    show f c = false
    cases hf : f c
    · rfl
    · have := h c hf
      rw [hs.1] at this
      cases this

def Good.end_ : Good (fun _ => 1) := ⟨⟨1, 0, fun _ => Nat.le_add_right _ _⟩, ⟨1, fun _ _ => Nat.le_refl _⟩, ⟨1, fun _ _ => Nat.le_refl _⟩⟩

def Good.seq {k : PyStr → Nat} {a b : Re} (h : Good (cost a (cost b k))) : Good (cost (.seq a b) k) :=
  ⟨h.linear.succ, h.digit.succ, h.dot.succ⟩
def Good.group {k : PyStr → Nat} {a : Re} (g : Grp) (h : Good (cost a k)) : Good (cost (.group g a) k) :=
  ⟨h.linear.succ, h.digit.succ, h.dot.succ⟩
def Good.opt {k : PyStr → Nat} {a : Re} (h : Good (cost a k)) (hk : Good k) : Good (cost (.opt a) k) :=
  ⟨.opt h.linear hk.linear, h.digit.add hk.digit, h.dot.add hk.dot⟩
def Good.alt {k : PyStr → Nat} {a b : Re} (ha : Good (cost a k)) (hb : Good (cost b k)) : Good (cost (.alt a b) k) :=
  ⟨.alt ha.linear hb.linear, ha.digit.add hb.digit, ha.dot.add hb.dot⟩

/-- A pattern that cannot start with a digit or a dot, and cannot be empty. -/
def Good.blocked {k : PyStr → Nat} {r : Re} (hl : Linear (cost r k)) (he : empties r = 0)
    (hf : ∀ c, starts r c = true → isDigit c = false ∧ isDot c = false) : Good (cost r k) :=
  ⟨hl, .blocked' (blocked_digit fun c hc => (hf c hc).1) he, .blocked' (blocked_dot fun c hc => (hf c hc).2) he⟩

theorem alpha_first {c : Char} (h : isAlpha c = true) : isDigit c = false ∧ isDot c = false := by
  constructor
  · cases hd : isDigit c
    · rfl
    · rw [isDigit_not_alpha hd] at h; cases h
  · cases hd : isDot c
    · rfl
    · rw [isSeparator_not_alpha (by simp only [isDot, decide_eq_true_eq] at hd; subst hd; decide)] at h; cases h

/-- `[\.\-_]?X` where `X` starts with a letter. -/
def Good.sep {k : PyStr → Nat} {r : Re} (hl : Linear (cost r k)) (he : empties r = 0)
    (hf : ∀ c, starts r c = true → isAlpha c = true) : Good (cost (.seq (.opt Pattern.separator) r) k) := by
  have g : Good (cost r k) := .blocked hl he fun c hc => alpha_first (hf c hc)
  obtain ⟨c, hc⟩ := g.digit
  obtain ⟨c', hc'⟩ := g.dot
  refine ⟨.seq (.starFree _ rfl hl), ⟨c + 3, fun s hs => ?_⟩, ⟨c + c' + 3, fun s hs => ?_⟩⟩
  · have := hc s hs
    match s, hs with
    | d :: s, hs =>
      have : isSeparator d = false := by
        cases h : isSeparator d
        · rfl
        · have h' := isSeparator_not_digit h
          rw [show isDigit d = true from hs] at h'
          cases h'
      simp only [cost_seq, Pattern.separator]
      simp only [cost, this]
      simp only [Bool.false_eq_true, if_false]
      omega
  · have h1 := hc' s hs
    match s, hs with
    | x :: d :: s, hs =>
      have h2 := hc (d :: s) hs.2
      simp only [cost_seq, Pattern.separator]
      simp only [cost]
      split <;> omega

/-- `\.X` where `X` cannot start with a digit. -/
def Good.dotted {k : PyStr → Nat} {r : Re} (hl : Linear (cost r k)) (he : empties r = 0)
    (hf : ∀ c, starts r c = true → isDigit c = false) : Good (cost (.seq (lit '.') r) k) := by
  have ⟨c, hc⟩ : Quick (Starts isDigit) (cost r k) := .blocked' (blocked_digit hf) he
  refine ⟨.seq (.starFree _ rfl hl), .blocked' (blocked_digit fun c hc => ?_) (by simp [empties, lit]), ⟨c + 2, fun s hs => ?_⟩⟩
  · simp only [starts, lit, empties, Bool.or_eq_true, Bool.and_eq_true, decide_eq_true_eq] at hc
    rcases hc with rfl | hc
    · decide
    · exact absurd rfl hc.1
  · match s, hs with
    | x :: d :: s, hs =>
      have h2 := hc (d :: s) hs.2
      simp only [cost_seq, lit, cost_cons]
      split <;> omega

/-! ## The parts of the patterns -/

def Linear.digits {k : PyStr → Nat} (h : Good k) : Linear (cost Pattern.digits k) := .plus_class isDigit h.linear h.digit

/-- `(?:[\.\-_]?[0-9]+)?` -/
def Linear.value {k : PyStr → Nat} {r : Re} (h : Good k) (hr : Linear (cost r k)) :
    Linear (cost (.opt (.seq (.opt Pattern.separator) r)) k) := .opt (.seq (.starFree _ rfl hr)) h.linear

def Linear.release {k : PyStr → Nat} (h : Good k) : Linear (cost Pattern.releaseNumbers k) := by
  have hd : ∀ c, (fun c => decide (c = '.')) c = true → isDigit c = false := by
    intro c hc
    simp only [decide_eq_true_eq] at hc
    subst hc; decide
  refine .seq (.plus_class isDigit (.star_sep _ isDigit hd h.linear h.digit h.dot) (.blocked (blocked_digit ?_) h.digit))
  intro c hc
  simp only [starts, plus, Bool.or_eq_true, Bool.and_eq_true, decide_eq_true_eq] at hc
  rcases hc with hc | hc
  · exact hd c hc
  · exact absurd rfl hc.1

theorem starts_head {a b : Re} (he : empties a = 0) (c : Char) : starts (.seq a b) c = starts a c := by simp [starts, he]

theorem prePhases_letters : ∀ w ∈ Pattern.prePhases, ∀ x ∈ w.toList, 'a' ≤ x ∧ x ≤ 'z' := by decide
theorem postPhases_letters : ∀ w ∈ Pattern.postPhases, ∀ x ∈ w.toList, 'a' ≤ x ∧ x ≤ 'z' := by decide
theorem devPhases_letters : ∀ w ∈ Pattern.devPhases, ∀ x ∈ w.toList, 'a' ≤ x ∧ x ≤ 'z' := by decide

theorem wildcard_first {c : Char} (h : starts Pattern.wildcard c = true) : isDigit c = false ∧ isDot c = false := by
  simp only [Pattern.wildcard, starts, Bool.or_eq_true] at h
  rcases h with h | h
  · exact alpha_first (letter_alpha (by decide) h)
  · simp only [lit, starts, decide_eq_true_eq] at h
    subst h; decide

def Good.local_ {k : PyStr → Nat} (c : Nat) (hc : ∀ s, k s ≤ c) (h : Good k) : Good (cost Pattern.local_ k) := by
  have hq : ∀ P, Quick P k := fun P => ⟨c, fun s _ => hc s⟩
  have hd : ∀ c, isSeparator c = true → (fun c => isAlpha c || isDigit c) c = false := by
    intro c hc
    simp [isSeparator_not_alpha hc, isSeparator_not_digit hc]
  refine .opt (.blocked (.seq (.starFree _ rfl (.group _ (.seq (.plus_class _ (.star_sep _ _ hd h.linear (hq _) (hq _)) ?_))))) rfl ?_) h
  · refine ⟨weight (.star (.seq Pattern.separator (plus Pattern.alphaDigit))) + c, fun s hs => ?_⟩
    refine (cost_blocked _ k s ?_).trans (Nat.add_le_add_left (by simpa [empties] using hc s) _)
    match s, hs with
    | d :: s, hs =>
      show starts _ d = false
      simp only [starts, empties, Pattern.separator]
      cases h : isSeparator d
      · simp
      · have := hd d h
        rw [show (fun c => isAlpha c || isDigit c) d = true from hs] at this
        cases this
  · intro c hc
    simp only [seqs] at hc
    rw [starts_head rfl] at hc
    simp only [lit, starts, decide_eq_true_eq] at hc
    subst hc; decide

/-- A phase, followed by `r`. -/
theorem phase_first {l : List String} {r : Re} {g : Grp} (hl : ∀ w ∈ l, ∀ x ∈ w.toList, 'a' ≤ x ∧ x ≤ 'z')
    (he : empties (Pattern.phases l) = 0) : ∀ c, starts (.seq (.group g (Pattern.phases l)) r) c = true → isAlpha c = true := by
  intro c hc
  rw [starts_head (by simpa [empties] using he)] at hc
  exact phases_alpha hl hc

theorem phase_first' {l : List String} {r : Re} (hl : ∀ w ∈ l, ∀ x ∈ w.toList, 'a' ≤ x ∧ x ≤ 'z')
    (he : empties (Pattern.phases l) = 0) : ∀ c, starts (.seq (Pattern.phases l) r) c = true → isAlpha c = true := by
  intro c hc
  rw [starts_head he] at hc
  exact phases_alpha hl hc

theorem empties_seq {a b : Re} (h : empties a = 0) : empties (.seq a b) = 0 := by simp [empties, h]

/-- `[\.\-_]?` then a tag in groups. -/
def Good.tag {k : PyStr → Nat} {l : List String} {g g₁ g₂ : Grp} (hl : ∀ w ∈ l, ∀ x ∈ w.toList, 'a' ≤ x ∧ x ≤ 'z')
    (he : empties (Pattern.phases l) = 0) (hs : starFree (Pattern.phases l) = true) (h : Good k) :
    Good (cost (seqs [.opt Pattern.separator,
      .group g (seqs [.group g₁ (Pattern.phases l), .opt (seqs [.opt Pattern.separator, .group g₂ Pattern.digits])])]) k) :=
  .sep (.group _ (.seq (.group _ (.starFree _ hs (.value h (.group _ (.digits h)))))))
    (empties_seq (a := .group g₁ _) he) (phase_first (g := g₁) hl he)

/-- `[\.\-_]?` then a tag without groups. -/
def Good.tag' {k : PyStr → Nat} {l : List String} (hl : ∀ w ∈ l, ∀ x ∈ w.toList, 'a' ≤ x ∧ x ≤ 'z')
    (he : empties (Pattern.phases l) = 0) (hs : starFree (Pattern.phases l) = true) (h : Good k) :
    Good (cost (seqs [.opt Pattern.separator, seqs [Pattern.phases l, .opt (seqs [.opt Pattern.separator, Pattern.digits])]]) k) :=
  .sep (.seq (.starFree _ hs (.value h (.digits h)))) (empties_seq he) (phase_first' hl he)

/-- `[\.\-_]?` then a phase with a wildcard. -/
def Good.wildcardTag {k : PyStr → Nat} {l : List String} (hl : ∀ w ∈ l, ∀ x ∈ w.toList, 'a' ≤ x ∧ x ≤ 'z')
    (he : empties (Pattern.phases l) = 0) (hs : starFree (Pattern.phases l) = true) (h : Good k) :
    Good (cost (seqs [.opt Pattern.separator, seqs [Pattern.phases l, .opt Pattern.separator, Pattern.wildcard]]) k) :=
  .sep (.seq (.starFree _ hs (.seq (.starFree _ rfl (.starFree _ rfl h.linear))))) (empties_seq he) (phase_first' hl he)

def Good.dash {k : PyStr → Nat} {r : Re} (hr : Linear (cost r k)) : Good (cost (seqs [lit '-', r]) k) := by
  refine .blocked (.seq (.starFree _ rfl hr)) (empties_seq (a := lit '-') rfl) fun c hc => ?_
  simp only [seqs] at hc
  rw [starts_head rfl] at hc
  simp only [lit, starts, decide_eq_true_eq] at hc
  subst hc; decide

def Linear.publicVersion {k : PyStr → Nat} (h : Good k) : Linear (cost Pattern.publicVersion k) := by
  have dev : Good _ := .opt (.tag (g := .dev) (g₁ := .devPhase) (g₂ := .devValue) devPhases_letters rfl rfl h) h
  have post : Good _ := .opt (.alt (.dash (.group .postImplicit (.digits dev)))
    (.tag (g := .post) (g₁ := .postPhase) (g₂ := .postValue) postPhases_letters rfl rfl dev)) dev
  have pre : Good _ := .seq (.opt (.tag (g := .pre) (g₁ := .prePhase) (g₂ := .preValue) prePhases_letters rfl rfl (.seq post)) (.seq post))
  have release : Linear _ := .seq (.group .release (.release pre))
  have bang : Good (cost (lit '!') (cost (.seq (.group .release Pattern.releaseNumbers) _) k)) :=
    .blocked (.chr _ release) rfl fun c hc => by
      simp only [lit, starts, decide_eq_true_eq] at hc
      subst hc; decide
  exact .seq (.starFree _ rfl (.seq (.opt (.seq (.group .epoch (.digits bang))) release)))

def Linear.version {k : PyStr → Nat} (c : Nat) (hc : ∀ s, k s ≤ c) (h : Good k) : Linear (cost Pattern.version k) :=
  .seq (.publicVersion (.local_ c hc h))

def Linear.wildcardVersion {k : PyStr → Nat} (h : Good k) : Linear (cost Pattern.wildcardVersion k) := by
  have w : Linear (cost Pattern.wildcard k) := .starFree _ rfl h.linear
  have dev : Good _ := .wildcardTag devPhases_letters rfl rfl h
  have post : Good _ := .seq (.opt (.alt (.dash (.digits dev)) (.tag' postPhases_letters rfl rfl dev)) dev)
  have post' : Good _ := .alt (.alt (.dash w) (.wildcardTag postPhases_letters rfl rfl h)) post
  have pre : Good _ := .seq (.opt (.tag' prePhases_letters rfl rfl post') post')
  have after : Good _ := .alt (.dotted w rfl fun c hc => (wildcard_first hc).1) (.alt (.wildcardTag prePhases_letters rfl rfl h) pre)
  have release : Linear _ := .seq (.release after)
  have all : Linear _ := .alt w release
  have bang : Good (cost (lit '!') (cost (.alt Pattern.wildcard (.seq Pattern.releaseNumbers _)) k)) :=
    .blocked (.chr _ all) rfl fun c hc => by
      simp only [lit, starts, decide_eq_true_eq] at hc
      subst hc; decide
  exact .seq (.starFree _ rfl (.seq (.opt (.seq (.digits bang)) all)))

def Linear.tag : Linear (cost Pattern.tag (fun _ => 1)) := by
  have h := Good.end_
  have v : Linear _ := .value h (.group .value (.digits h))
  refine .seq (.group _ (.plus_class _ v ?_))
  refine .blocked (P := Starts isAlpha) (fun s hs => ?_) ⟨1, fun _ _ => Nat.le_refl _⟩
  match s, hs with
  | d :: s, hs =>
    show starts _ d = false
    have h1 : isDigit d = false := (alpha_first hs).1
    have h2 : isSeparator d = false := by
      cases h : isSeparator d
      · rfl
      · have := isSeparator_not_alpha h
        rw [show isAlpha d = true from hs] at this
        cases this
    simp [starts, seqs, Pattern.separator, Pattern.digits, plus, Pattern.digit, empties, h1, h2]

theorem search_linear {r : Re} (h : Linear (cost r (fun _ => 1))) (s : PyStr) :
    (search r s).steps ≤ h.constant + h.factor * s.length :=
  (engine_steps r atEnd (fun _ => 1) (fun _ => Nat.le_refl _) (s, [])).trans (h.le s)

def Linear.wildcardSpecification : Linear (cost Pattern.wildcardSpecification (fun _ => 1)) :=
  .seq (.starFree (.opt (.group .operator (alts [lits "==", lits "=", lits "!="]))) (by decide) (.group _ (.wildcardVersion .end_)))
def Linear.orderSpecification : Linear (cost Pattern.orderSpecification (fun _ => 1)) :=
  .seq (.starFree (.group .operator (alts [lits "<=", lits ">=", lits "<", lits ">"])) (by decide) (.group _ (.publicVersion .end_)))
def Linear.caretSpecification : Linear (cost Pattern.caretSpecification (fun _ => 1)) :=
  .seq (.starFree (.group .operator (lits "^")) (by decide) (.group _ (.publicVersion .end_)))
def Linear.tildeSpecification : Linear (cost Pattern.tildeSpecification (fun _ => 1)) :=
  .seq (.starFree (.group .operator (alts [lits "~=", lits "~"])) (by decide) (.group _ (.publicVersion .end_)))
def Linear.equalSpecification : Linear (cost Pattern.equalSpecification (fun _ => 1)) :=
  .seq (.starFree (.opt (.group .operator (alts [lits "==", lits "=", lits "!="]))) (by decide)
    (.group _ (.version 1 (fun _ => Nat.le_refl _) .end_)))

end Verif.Re
