import Verif.Props.LocalBuilds
/-!
# C129: from text to answer, in any spelling

C122, C123 and C128 are about strings in the spelling that PEP 440 prescribes. Here versions and requirements are written in any of
the ways the grammar allows: with a leading `v`, zeros before numbers, separators before and within tags, `alpha` and `beta` in full,
`-1` for `.post1`, tags without number, no sign for `=`, and `x` for `*`. Operands of `==`, `=` and `!=` may have a local label.
-/

namespace Verif
open scoped Verif

/-! ## The strings -/

def PrePhase.words : PrePhase → List PyStr
  | .a => ["a".toList, "alpha".toList]
  | .b => ["b".toList, "beta".toList]
  | .rc => ["rc".toList]

/-- What is written as pre-release, post-release and development release. -/
def PreWritten : Option TagSpelling → Option (PrePhase × Nat) → Prop
  | none, none => True
  | some t, some (f, n) => t.phase ∈ f.words ∧ n = t.num
  | _, _ => False

def PostWritten : Option PostSpelling → Option Nat → Prop
  | none, none => True
  | some (.implicit d), some n => n = number d
  | some (.tag t), some n => t.phase = "post".toList ∧ n = t.num
  | _, _ => False

def DevWritten : Option TagSpelling → Option Nat → Prop
  | none, none => True
  | some t, some n => t.phase = "dev".toList ∧ n = t.num
  | _, _ => False

/-- The spelling, up to its local segment, is one of the public version. -/
structure Pub.WrittenAs (x : Pub) (p : Spelling) : Prop where
  wf : p.WF
  greedy : p.Greedy
  epoch : x.epoch = (p.epoch.map number).getD 0
  numbers : x.numbers = (p.major :: p.release).map number
  pre : PreWritten p.pre x.pre
  post : PostWritten p.post x.post
  dev : DevWritten p.dev x.dev

/-- A piece of a label is a number if it is all digits. -/
def LabelPart.WrittenAs : LabelPart → PyStr → Prop
  | .num n, s => Digits s ∧ n = number s
  | .word w, s => ¬ Digits s ∧ w = s

/-- A version on offer: a public version, or a local build of one. -/
inductive Offer
  | plain (x : Pub)
  | built (x : Build)

def Offer.WrittenAs : Offer → Spelling → Prop
  | .plain x, p => x.WrittenAs p ∧ p.local_ = none
  | .built x, p => x.base.WrittenAs p ∧ ∃ a l, p.local_ = some (a, l) ∧ List.Forall₂ LabelPart.WrittenAs x.label (a :: l.map (·.2)) ∧
      ∀ q ∈ x.label, q.WellFormed

/-- A single requirement: on a public version, or `==` or `!=` a local build. -/
inductive Wish
  | on (q : Ask)
  | exactly (y : Build)
  | except (y : Build)

/-- The string, which has no whitespace, is a requirement. -/
inductive Wish.WrittenAs : Wish → PyStr → Prop
  | sign {s : Sign} {x : Pub} {p : Spelling} : s.ending = "" → x.WrittenAs p → p.local_ = none → (s = .tildeEqual → 2 ≤ x.numbers.length) →
      Wish.WrittenAs (.on ⟨s, x⟩) (s.text.toList ++ p.text)
  | bare {x : Pub} {p : Spelling} : x.WrittenAs p → p.local_ = none → Wish.WrittenAs (.on ⟨.equal, x⟩) p.text
  | wildcard {s : Sign} {x : Pub} {p : Spelling} {c : Char} : s.ending = ".*" → x.WrittenAs p → p.local_ = none →
      p.pre = none → p.post = none → p.dev = none → (c = 'x' ∨ c = '*') →
      Wish.WrittenAs (.on ⟨s, x⟩) (s.text.toList ++ p.text ++ ['.', c])
  | bareWildcard {x : Pub} {p : Spelling} {c : Char} : x.WrittenAs p → p.local_ = none → p.pre = none → p.post = none → p.dev = none →
      (c = 'x' ∨ c = '*') → Wish.WrittenAs (.on ⟨.underSingle, x⟩) (p.text ++ ['.', c])
  | exactly {y : Build} {p : Spelling} {o : PyStr} : (Offer.built y).WrittenAs p → o = "==".toList ∨ o = "=".toList ∨ o = [] →
      Wish.WrittenAs (.exactly y) (o ++ p.text)
  | except {y : Build} {p : Spelling} : (Offer.built y).WrittenAs p → Wish.WrittenAs (.except y) ("!=".toList ++ p.text)

/-- Requirements with commas between them. -/
def GroupWritten (g : List Wish) (s : PyStr) : Prop :=
  ∃ a l, s = a ++ (l.map (',' :: ·)).flatten ∧ List.Forall₂ Wish.WrittenAs g (a :: l)

/-- Groups with `|` or `||` between them. -/
def FormulaWritten (f : List (List Wish)) (s : PyStr) : Prop :=
  ∃ a l, s = pipes a l ∧ List.Forall₂ GroupWritten f (a :: l.map (·.2))

/-! ## What they mean -/

/-- The version on offer is as wished. -/
def Wish.Holds : Wish → Offer → Prop
  | .on q, .plain x => q.Holds x
  | .on q, .built x => q.HoldsOfBase x.base
  | .exactly _, .plain _ => False
  | .exactly y, .built x => x.base.Same y.base ∧ x.label = y.label
  | .except _, .plain _ => True
  | .except y, .built x => ¬ (x.base.Same y.base ∧ x.label = y.label)

/-! ## Versions of the model -/

namespace AnySpelling
open LocalBuilds

def Offer.ver : Offer → Version
  | .plain x => FromPublic.ver x
  | .built x => x.ver

theorem pre_of {p : Option TagSpelling} {x : Option (PrePhase × Nat)} (h : PreWritten p x) :
    Spelling.OptOf Spelling.TagOf p (x.map fun t : PrePhase × Nat => ⟨FromPublic.phase t.1, t.2⟩) := by
  cases p with
  | none =>
    cases x with
    | none => trivial
    | some _ => exact h.elim
  | some t =>
    rcases x with _ | ⟨f, n⟩
    · exact h.elim
    · obtain ⟨h1, rfl⟩ := h
      refine ⟨?_, rfl⟩
      cases f <;> simp [PrePhase.words] at h1 <;> (try rcases h1 with h1 | h1) <;> rw [h1] <;> (show (_, _) ∈ _; dsimp only [FromPublic.phase]; decide)

theorem post_of {p : Option PostSpelling} {x : Option Nat} (h : PostWritten p x) :
    Spelling.OptOf Spelling.PostOf p (x.map fun n : Nat => ⟨"post".toList, n⟩) := by
  rcases p with _ | _ | t <;> cases x <;> first | exact h.elim | trivial | skip
  · exact congrArg (fun n : Nat => (⟨"post".toList, n⟩ : Tag)) h
  · obtain ⟨h1, rfl⟩ := h
    exact ⟨by rw [h1]; dsimp only; decide, rfl⟩

theorem dev_of {p : Option TagSpelling} {x : Option Nat} (h : DevWritten p x) :
    Spelling.OptOf Spelling.TagOf p (x.map fun n : Nat => ⟨"dev".toList, n⟩) := by
  rcases p with _ | t <;> cases x <;> first | exact h.elim | trivial | skip
  obtain ⟨h1, rfl⟩ := h
  exact ⟨by rw [h1]; dsimp only; decide, rfl⟩

theorem pub_of {x : Pub} {p : Spelling} (h : x.WrittenAs p) (hl : p.local_ = none) : p.Of (FromPublic.ver x) where
  epoch := by show (x.epoch : Int) = _; rw [h.epoch]
  release := by
    show x.numbers.map Int.ofNat = _
    rw [h.numbers, List.map_map]; rfl
  pre := pre_of h.pre
  post := post_of h.post
  dev := dev_of h.dev
  local_ := by rw [hl]; trivial

theorem part_of {q : LabelPart} {s : PyStr} (h : q.WrittenAs s) : Spelling.PartOf s (Build.part q) := by
  cases q with
  | num n => exact .inl ⟨h.1, by rw [h.2]; rfl⟩
  | word w => exact .inr ⟨h.1, by rw [h.2]; rfl⟩

theorem offer_of {o : Offer} {p : Spelling} (h : o.WrittenAs p) : p.Of (Offer.ver o) := by
  cases o with
  | plain x => exact pub_of h.1 h.2
  | built x =>
    obtain ⟨h, a, l, hl, hf, -⟩ := h
    refine ⟨?_, ?_, pre_of h.pre, post_of h.post, dev_of h.dev, ?_⟩
    · show (x.base.epoch : Int) = _; rw [h.epoch]
    · show x.base.numbers.map Int.ofNat = _
      rw [h.numbers, List.map_map]; rfl
    · rw [hl]
      show List.Forall₂ Spelling.PartOf (a :: l.map (·.2)) (x.label.map Build.part)
      rw [List.forall₂_map_right_iff]
      exact (hf.imp fun _ _ => part_of).flip

theorem offer_wf {o : Offer} {p : Spelling} (h : o.WrittenAs p) : p.WF ∧ p.Greedy := by
  cases o with
  | plain x => exact ⟨h.1.wf, h.1.greedy⟩
  | built x => exact ⟨h.1.wf, h.1.greedy⟩

theorem numbers_ne {x : Pub} {p : Spelling} (h : x.WrittenAs p) : x.numbers ≠ [] := by rw [h.numbers]; simp

theorem build_wf {x : Build} {p : Spelling} (h : (Offer.built x).WrittenAs p) : x.WellFormed := by
  obtain ⟨h, a, l, -, hf, hq⟩ := h
  exact ⟨numbers_ne h, (fun e => by rw [e] at hf; cases hf), hq⟩

theorem offer_parse {o : Offer} {p : Spelling} (h : o.WrittenAs p) : Version.parse p.text = .ok (Offer.ver o) :=
  (C41_spellings p (offer_wf h).1 (offer_wf h).2 _ (offer_of h)).1

/-- What an operator says about versions on offer. -/
def Says (o : Operator) (w : Wish) : Prop := ∀ off p, Offer.WrittenAs off p → (o.accepts (Offer.ver off) = .ok true ↔ w.Holds off)

theorem says_on {q : Ask} (h : q.WellFormed) : Says (FromPublic.operator q) (.on q) := by
  intro off p hp
  cases off with
  | plain x =>
    obtain ⟨b, b1, b2⟩ := FromPublic.ask_accepts q h x (numbers_ne hp.1)
    show (FromPublic.operator q).accepts (FromPublic.ver x) = _ ↔ q.Holds x
    rw [b1, ← b2]; simp
  | built x =>
    obtain ⟨b, b1, b2⟩ := ask_build q h x (build_wf hp)
    show (FromPublic.operator q).accepts x.ver = _ ↔ q.HoldsOfBase x.base
    rw [b1, ← b2]; simp

theorem build_eq {x y : Build} (hx : x.WellFormed) (hy : y.WellFormed) :
    PyCmp.eq x.ver y.ver = true ↔ x.base.Same y.base ∧ x.label = y.label := by
  obtain ⟨v, w, hv, hw, -, h, -⟩ := C128_order x y hx hy
  rw [build_parse hx] at hv; rw [build_parse hy] at hw
  cases hv; cases hw
  exact h

theorem pub_ne {x : Pub} {y : Build} : PyCmp.eq (FromPublic.ver x) y.ver = false := by
  have : PyCmp.eq y.ver (FromPublic.ver x) = false := eq_public rfl (by simp [Build.ver])
  rw [Bool.eq_false_iff, ne_eq, veq_iff] at this ⊢
  exact fun h => this h.symm

theorem says_exactly {y : Build} (hy : y.WellFormed) {t : OpType} (ht : t = .doubleEqual ∨ t = .equal) :
    Says ⟨t, y.ver⟩ (.exactly y) := by
  intro off p hp
  have e : (⟨t, y.ver⟩ : Operator).accepts (Offer.ver off) = .ok (PyCmp.eq (Offer.ver off) y.ver) := by
    rcases ht with rfl | rfl <;> rfl
  rw [e]
  cases off with
  | plain x =>
    show Except.ok (PyCmp.eq (FromPublic.ver x) y.ver) = _ ↔ False
    rw [pub_ne]; simp
  | built x =>
    show Except.ok (PyCmp.eq x.ver y.ver) = _ ↔ _ ∧ _
    rw [← build_eq (build_wf hp) hy]; simp

theorem says_except {y : Build} (hy : y.WellFormed) : Says ⟨.notEqual, y.ver⟩ (.except y) := by
  intro off p hp
  show Except.ok (!PyCmp.eq (Offer.ver off) y.ver) = _ ↔ _
  cases off with
  | plain x =>
    show Except.ok (!PyCmp.eq (FromPublic.ver x) y.ver) = _ ↔ True
    rw [pub_ne]; simp
  | built x =>
    show Except.ok (!PyCmp.eq x.ver y.ver) = _ ↔ ¬ (_ ∧ _)
    rw [← build_eq (build_wf hp) hy]; simp

/-- The spelling with a zero behind the last number. -/
def withZero (p : Spelling) : Spelling := { p with release := p.release ++ [['0']] }

theorem withZero_written {x : Pub} {p : Spelling} (h : x.WrittenAs p) : (FromPublic.longer x).WrittenAs (withZero p) where
  wf := ⟨h.wf.v, h.wf.epoch, h.wf.major, by
    intro d hd
    rcases List.mem_append.1 hd with hd | hd
    · exact h.wf.release d hd
    · rw [List.mem_singleton] at hd; subst hd; decide, h.wf.pre, h.wf.post, h.wf.dev, h.wf.local_⟩
  greedy := h.greedy
  epoch := h.epoch
  numbers := by simp [FromPublic.longer, withZero, h.numbers, number]
  pre := h.pre
  post := h.post
  dev := h.dev

theorem withZero_wild {p : Spelling} (h1 : p.pre = none) (h2 : p.post = none) (h3 : p.dev = none) (h4 : p.local_ = none) (c : Char) :
    (withZero p).wild c = p.text ++ ['.', c] := by
  have e : (withZero p).text = p.text ++ ['.', '0'] := by
    simp [withZero, Spelling.text, Spelling.releaseText, Spelling.optText, Spelling.localText, h1, h2, h3, h4]
  have : (p.text ++ ['.', '0']).dropLast = p.text ++ ['.'] := by
    rw [List.dropLast_append_of_ne_nil (by simp)]; rfl
  simp [Spelling.wild, e, this]

theorem wild_single {s : Sign} {x : Pub} {p : Spelling} {c : Char} {o : PyStr} (hs : s.ending = ".*") (hx : x.WrittenAs p) (h4 : p.local_ = none)
    (h1 : p.pre = none) (h2 : p.post = none) (h3 : p.dev = none) (hc : c = 'x' ∨ c = '*') (ho : (o, FromText.op s) ∈ wildcardWords) :
    ∃ op, SingleOf (o ++ p.text ++ ['.', c]) op ∧ Says op (.on ⟨s, x⟩) := by
  have wf : Ask.WellFormed ⟨s, x⟩ := by
    refine ⟨numbers_ne hx, fun e => ?_, fun _ => ?_⟩
    · simp only at e; rw [e] at hs; exact absurd hs (by decide)
    · have a := hx.pre; have b := hx.post; have d := hx.dev
      rw [h1] at a; rw [h2] at b; rw [h3] at d
      refine ⟨?_, ?_, ?_⟩
      · cases e : x.pre with
        | none => rfl
        | some _ => rw [e] at a; exact a.elim
      · cases e : x.post with
        | none => rfl
        | some _ => rw [e] at b; exact b.elim
      · cases e : x.dev with
        | none => rfl
        | some _ => rw [e] at d; exact d.elim
  refine ⟨_, ?_, says_on wf⟩
  have hw : (FromText.op s).isWildcard = true := (FromPublic.ending_iff s).1 hs
  have e : FromPublic.operator ⟨s, x⟩ = ⟨FromText.op s, FromPublic.ver (FromPublic.longer x)⟩ := by simp [FromPublic.operator, hw]
  rw [e, List.append_assoc, ← withZero_wild h1 h2 h3 h4 c]
  have hz := withZero_written hx
  refine .wildcard ho hz.wf hz.greedy ?_ hc (pub_of hz h4)
  refine ⟨h4, ?_⟩
  simp [withZero, h1, h2, h3]

theorem wish_single {w : Wish} {t : PyStr} (h : w.WrittenAs t) : ∃ o, SingleOf t o ∧ Says o w := by
  cases h with
  | @sign s x p hs hx hl ht =>
    have hw : (FromText.op s).isWildcard = false := by
      rw [Bool.eq_false_iff]; intro e
      rw [← FromPublic.ending_iff] at e
      rw [e] at hs; exact absurd hs (by decide)
    have wf : Ask.WellFormed ⟨s, x⟩ := ⟨numbers_ne hx, ht, fun e => by simp only at e; rw [e] at hs; exact absurd hs (by decide)⟩
    refine ⟨_, ?_, says_on wf⟩
    have e : FromPublic.operator ⟨s, x⟩ = ⟨FromText.op s, FromPublic.ver x⟩ := by simp [FromPublic.operator, hw]
    rw [e]
    by_cases hq : s = .doubleEqual ∨ s = .equal ∨ s = .notEqual
    · exact .equal (by rcases hq with rfl | rfl | rfl <;> decide) hx.wf hx.greedy (pub_of hx hl)
    · refine .compare ?_ hx.wf hx.greedy hl (pub_of hx hl) ?_
      · cases s <;> first | decide | (exact absurd hs (by decide)) | (exact absurd hq (by simp))
      · intro e
        have : s = .tildeEqual := by revert e; cases s <;> simp [FromText.op]
        have := ht this
        rw [hx.numbers] at this
        intro hr; rw [hr] at this
        simp at this
  | @bare x p hx hl =>
    have wf : Ask.WellFormed ⟨.equal, x⟩ := ⟨numbers_ne hx, by simp, fun e => by simp only at e; exact absurd e (by decide)⟩
    exact ⟨_, SingleOf.equal (o := []) (t := .equal) (by decide) hx.wf hx.greedy (pub_of hx hl), says_on wf⟩
  | @wildcard s x p c hs hx h4 h1 h2 h3 hc =>
    exact wild_single hs hx h4 h1 h2 h3 hc (by cases s <;> first | (exact absurd hs (by decide)) | decide)
  | @bareWildcard x p c hx h4 h1 h2 h3 hc =>
    exact wild_single (s := .underSingle) (o := []) rfl hx h4 h1 h2 h3 hc (by decide)
  | @exactly y p o hy ho =>
    have h := offer_of hy
    rcases ho with rfl | rfl | rfl
    · exact ⟨_, SingleOf.equal (t := .doubleEqual) (by decide) (offer_wf hy).1 (offer_wf hy).2 h, says_exactly (build_wf hy) (.inl rfl)⟩
    · exact ⟨_, SingleOf.equal (t := .equal) (by decide) (offer_wf hy).1 (offer_wf hy).2 h, says_exactly (build_wf hy) (.inr rfl)⟩
    · exact ⟨_, SingleOf.equal (t := .equal) (by decide) (offer_wf hy).1 (offer_wf hy).2 h, says_exactly (build_wf hy) (.inr rfl)⟩
  | @except y p hy =>
    exact ⟨_, SingleOf.equal (t := .notEqual) (by decide) (offer_wf hy).1 (offer_wf hy).2 (offer_of hy), says_except (build_wf hy)⟩

theorem through {α β γ : Type} {R : α → β → Prop} {S : β → γ → Prop} {T : γ → α → Prop} (h : ∀ a b, R a b → ∃ c, S b c ∧ T c a)
    {l : List α} {m : List β} (hl : List.Forall₂ R l m) : ∃ n, List.Forall₂ S m n ∧ List.Forall₂ T n l := by
  induction hl with
  | nil => exact ⟨[], .nil, .nil⟩
  | cons hr _ ih =>
    obtain ⟨c, h1, h2⟩ := h _ _ hr
    obtain ⟨n, h3, h4⟩ := ih
    exact ⟨c :: n, .cons h1 h3, .cons h2 h4⟩

theorem all_says {ops : List Operator} {g : List Wish} (h : List.Forall₂ Says ops g) {off : Offer} {p : Spelling} (hp : off.WrittenAs p) :
    (∀ o ∈ ops, o.accepts (Offer.ver off) = .ok true) ↔ ∀ w ∈ g, w.Holds off := by
  induction h with
  | nil => simp
  | cons h1 _ ih => simp only [List.forall_mem_cons, ih, h1 off p hp]

theorem any_says {gs : List (List Operator)} {f : List (List Wish)} (h : List.Forall₂ (List.Forall₂ Says) gs f) {off : Offer} {p : Spelling}
    (hp : off.WrittenAs p) :
    (∃ g ∈ gs, ∀ o ∈ g, o.accepts (Offer.ver off) = .ok true) ↔ ∃ g ∈ f, ∀ w ∈ g, w.Holds off := by
  induction h with
  | nil => simp
  | cons h1 _ ih => simp only [List.exists_mem_cons_iff, ih, all_says h1 hp]

theorem formula_any {f : List (List Wish)} {s : PyStr} (h : FormulaWritten f s) : ∃ gs, AnyOf s gs ∧ List.Forall₂ (List.Forall₂ Says) gs f := by
  obtain ⟨a, l, hs, hf⟩ := h
  obtain ⟨gs, h1, h2⟩ := through (S := AllOf) (T := List.Forall₂ Says) (fun g s ⟨a, l, hs, hg⟩ => by
    obtain ⟨ops, h1, h2⟩ := through (S := SingleOf) (T := Says) (fun _ _ => wish_single) hg
    exact ⟨ops, ⟨a, l, hs, h1⟩, h2⟩) hf
  exact ⟨gs, ⟨a, l, hs, h1⟩, h2⟩

end AnySpelling

open AnySpelling

/-- C129. However they are spelled, requirements are read as a specifier that accepts the version on offer exactly if it is as all
requirements of one of the groups wish. -/
theorem C129_formula (f : List (List Wish)) (t : PyStr) (ht : FormulaWritten f (t.filter (fun c => !isSpace c))) (o : Offer) (p : Spelling)
    (hp : o.WrittenAs p) :
    ∃ s v b, Specifier.parse t = .ok s ∧ Version.parse p.text = .ok v ∧ s.accepts v = .ok b ∧
      (b = true ↔ ∃ g ∈ f, ∀ w ∈ g, w.Holds o) := by
  obtain ⟨gs, h1, h2⟩ := formula_any ht
  obtain ⟨s, h3, h4⟩ := C52_accepts t gs h1
  obtain ⟨b, h5, h6⟩ := h4 (Offer.ver o)
  exact ⟨s, _, b, h3, offer_parse hp, h5, h6.trans (any_says h2 hp)⟩

/-- C129. The same for the version set that is read from the string, if one is. -/
theorem C129_set (f : List (List Wish)) (t : PyStr) (ht : FormulaWritten f (t.filter (fun c => !isSpace c))) (o : Offer) (p : Spelling)
    (hp : o.WrittenAs p) (lim : Nat) (z : VSet) (hz : VSet.parse lim t = .ok z) :
    ∃ v, Version.parse p.text = .ok v ∧ (z.contains v = true ↔ ∃ g ∈ f, ∀ w ∈ g, w.Holds o) := by
  obtain ⟨s, v, b, h1, h2, h3, h4⟩ := C129_formula f t ht o p hp
  refine ⟨v, h2, ?_⟩
  obtain ⟨-, y, t1, t2⟩ := C53_set lim _ z hz
  rw [h1] at t1
  cases t1
  obtain ⟨b', b1, b2⟩ := t2 v
  rw [h3] at b1
  cases b1
  rw [vset_contains_iff_mem, ← b2, h4]

namespace AnySpelling

/-- The piece of a label that a string is. -/
def piece (s : PyStr) : LabelPart := if Digits s then .num (number s) else .word s

theorem piece_written (s : PyStr) : (piece s).WrittenAs s := by
  unfold piece
  split
  · rename_i h; exact ⟨h, rfl⟩
  · rename_i h; exact ⟨h, rfl⟩

theorem piece_wf {s : PyStr} (h1 : AlphaNum s) (h2 : ∀ c ∈ s, ('a' ≤ c ∧ c ≤ 'z') ∨ ('0' ≤ c ∧ c ≤ '9')) : (piece s).WellFormed := by
  unfold piece
  split
  · trivial
  · rename_i h
    refine ⟨h2, ?_⟩
    by_contra hn
    exact h ⟨h1.1, fun c hc => (h2 c hc).resolve_left fun a => hn ⟨c, hc, a⟩⟩

theorem forall₂_map (l : List PyStr) : List.Forall₂ LabelPart.WrittenAs (l.map piece) l := by
  induction l with
  | nil => exact .nil
  | cons s l ih => exact .cons (piece_written s) ih

end AnySpelling

/-- C129. The spellings of version strings that are covered: all but those with the words `c`, `pre`, `preview`, `rev` and `r`, with
phases in upper case, and with labels in upper case. -/
theorem C129_covers (p : Spelling) (hp : p.WF) (hg : p.Greedy) :
    (∃ o, Offer.WrittenAs o p) ↔
      (∀ t, p.pre = some t → t.phase ∈ ["a".toList, "alpha".toList, "b".toList, "beta".toList, "rc".toList]) ∧
      (∀ t, p.post = some (.tag t) → t.phase = "post".toList) ∧ (∀ t, p.dev = some t → t.phase = "dev".toList) ∧
      ∀ a l, p.local_ = some (a, l) → ∀ q ∈ a :: l.map (·.2), ∀ c ∈ q, ('a' ≤ c ∧ c ≤ 'z') ∨ ('0' ≤ c ∧ c ≤ '9') := by
  constructor
  · rintro ⟨o, ho⟩
    have key : ∃ x : Pub, x.WrittenAs p := by
      cases o with
      | plain x => exact ⟨x, ho.1⟩
      | built x => exact ⟨x.base, ho.1⟩
    obtain ⟨x, hx⟩ := key
    refine ⟨fun t ht => ?_, fun t ht => ?_, fun t ht => ?_, fun a l hl q hq c hc => ?_⟩
    · have h := hx.pre
      rw [ht] at h
      rcases e : x.pre with _ | ⟨f, n⟩ <;> rw [e] at h
      · exact h.elim
      · have h := h.1
        cases f <;> simp [PrePhase.words] at h ⊢ <;> tauto
    · have h := hx.post
      rw [ht] at h
      rcases e : x.post with _ | n <;> rw [e] at h
      · exact h.elim
      · exact h.1
    · have h := hx.dev
      rw [ht] at h
      rcases e : x.dev with _ | n <;> rw [e] at h
      · exact h.elim
      · exact h.1
    · cases o with
      | plain x => rw [ho.2] at hl; cases hl
      | built x =>
        obtain ⟨-, a', l', hl', hf, hw⟩ := ho
        rw [hl] at hl'
        cases hl'
        obtain ⟨i, hi, rfl⟩ := List.mem_iff_getElem.1 hq
        have hlen := hf.length_eq
        have h1 := List.Forall₂.get hf (hlen ▸ hi) hi
        have h2 := hw _ (List.get_mem x.label ⟨i, hlen ▸ hi⟩)
        simp only [List.get_eq_getElem] at h1 h2
        cases e : x.label[i]'(hlen ▸ hi) with
        | num n => rw [e] at h1; exact .inr (h1.1.2 c hc)
        | word w =>
          rw [e] at h1 h2
          rw [← h1.2] at hc
          exact h2.1 c hc
  · rintro ⟨h1, h2, h3, h4⟩
    have pre : ∃ x, PreWritten p.pre x := by
      rcases e : p.pre with _ | t
      · exact ⟨none, trivial⟩
      · have := h1 t e
        simp only [List.mem_cons, List.not_mem_nil, or_false] at this
        rcases this with h | h | h | h | h
        · exact ⟨some (.a, t.num), by rw [h]; decide, rfl⟩
        · exact ⟨some (.a, t.num), by rw [h]; decide, rfl⟩
        · exact ⟨some (.b, t.num), by rw [h]; decide, rfl⟩
        · exact ⟨some (.b, t.num), by rw [h]; decide, rfl⟩
        · exact ⟨some (.rc, t.num), by rw [h]; decide, rfl⟩
    have post : ∃ x, PostWritten p.post x := by
      rcases e : p.post with _ | d | t
      · exact ⟨none, trivial⟩
      · exact ⟨some (number d), rfl⟩
      · exact ⟨some t.num, h2 t e, rfl⟩
    have dev : ∃ x, DevWritten p.dev x := by
      rcases e : p.dev with _ | t
      · exact ⟨none, trivial⟩
      · exact ⟨some t.num, h3 t e, rfl⟩
    obtain ⟨a, ha⟩ := pre
    obtain ⟨b, hb⟩ := post
    obtain ⟨d, hd⟩ := dev
    have hx : Pub.WrittenAs ⟨(p.epoch.map number).getD 0, (p.major :: p.release).map number, a, b, d⟩ p := ⟨hp, hg, rfl, rfl, ha, hb, hd⟩
    rcases e : p.local_ with _ | ⟨s, l⟩
    · exact ⟨.plain _, hx, e⟩
    · refine ⟨.built ⟨_, (s :: l.map (·.2)).map piece⟩, hx, s, l, e, forall₂_map _, ?_⟩
      intro q hq
      obtain ⟨w, hw, rfl⟩ := List.mem_map.1 hq
      refine piece_wf ?_ (h4 s l e w hw)
      have := hp.local_ _ e
      rcases List.mem_cons.1 hw with rfl | hw
      · exact this.1
      · obtain ⟨y, hy, rfl⟩ := List.mem_map.1 hw
        exact (this.2 y hy).2

/-- `v01.0-alpha+x-1`, a build of `1.0a0`. -/
def exOddSpelling : Spelling :=
  ⟨['v'], none, "01".toList, ["0".toList], some ⟨"-".toList, "alpha".toList, none⟩, none, none, some ("x".toList, [('-', "1".toList)])⟩
def exOddOffer : Offer := .built ⟨{ numbers := [1, 0], pre := some (.a, 0) }, [.word "x".toList, .num 1]⟩

example : exOddSpelling.text = "v01.0-alpha+x-1".toList := by decide +kernel
example : exOddOffer.WrittenAs exOddSpelling := by
  refine ⟨⟨by decide +kernel, by decide +kernel, rfl, by decide, ⟨by decide, rfl⟩, trivial, trivial⟩, _, _, rfl, ?_, ?_⟩
  · exact .cons ⟨by decide, rfl⟩ (.cons ⟨by decide, by decide⟩ .nil)
  · simp [LabelPart.WellFormed]

/-- `!=v1.x, > 01.0alpha` and `1.0a+x.1`. -/
def exWishes : List (List Wish) :=
  [[.on ⟨.notUnder, { numbers := [1] }⟩, .on ⟨.greater, { numbers := [1, 0], pre := some (.a, 0) }⟩],
    [.exactly ⟨{ numbers := [1, 0], pre := some (.a, 0) }, [.word "x".toList, .num 1]⟩]]

example : FormulaWritten exWishes (("!=v1.x, > 01.0alpha | 1.0a+x.1".toList).filter (fun c => !isSpace c)) := by
  have e : ("!=v1.x, > 01.0alpha | 1.0a+x.1".toList).filter (fun c => !isSpace c) =
      pipes ("!=v1.x".toList ++ ([">01.0alpha".toList].map (',' :: ·)).flatten) [(false, "1.0a+x.1".toList)] := by decide +kernel
  rw [e]
  refine ⟨_, _, rfl, .cons ⟨_, _, rfl, .cons ?_ (.cons ?_ .nil)⟩ (.cons ⟨_, [], (List.append_nil _).symm, .cons ?_ .nil⟩ .nil)⟩
  · exact Wish.WrittenAs.wildcard (s := .notUnder) (c := 'x') (p := ⟨['v'], none, "1".toList, [], none, none, none, none⟩)
      rfl ⟨by decide +kernel, by decide +kernel, rfl, by decide, trivial, trivial, trivial⟩ rfl rfl rfl rfl (.inl rfl)
  · exact Wish.WrittenAs.sign (s := .greater) (p := ⟨[], none, "01".toList, ["0".toList], some ⟨[], "alpha".toList, none⟩, none, none, none⟩)
      rfl ⟨by decide +kernel, by decide +kernel, rfl, by decide, ⟨by decide, rfl⟩, trivial, trivial⟩ rfl (by simp)
  · refine Wish.WrittenAs.exactly (o := []) (p := ⟨[], none, "1".toList, ["0".toList], some ⟨[], "a".toList, none⟩, none, none,
      some ("x".toList, [('.', "1".toList)])⟩) ⟨⟨by decide +kernel, by decide +kernel, rfl, by decide, ⟨by decide, rfl⟩, trivial, trivial⟩, _, _, rfl,
        .cons ⟨by decide, rfl⟩ (.cons ⟨by decide, by decide⟩ .nil), ?_⟩ (.inr (.inr rfl))
    simp [LabelPart.WellFormed]

/-- The second group holds. -/
example : ∃ g ∈ exWishes, ∀ w ∈ g, w.Holds exOddOffer := by
  refine ⟨_, .tail _ (.head _), fun w hw => ?_⟩
  rw [List.mem_singleton] at hw
  subst hw
  exact ⟨⟨rfl, fun _ => rfl, rfl, rfl, rfl⟩, rfl⟩
example : (Specifier.parse "!=v1.x, > 01.0alpha | 1.0a+x.1".toList).toOption.bind (fun s =>
    (Version.parse "v01.0-alpha+x-1".toList).toOption.bind fun v => (s.accepts v).toOption) = some true := by decide +kernel

end Verif
