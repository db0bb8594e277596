import Verif.Model.DigitLimit
import Verif.Proofs.Numerals
/-!
# Parsing versions under a limit on the number of digits
-/

namespace Verif
open Re

/-- The numeral is short enough. -/
def FitsNumeral (limit : Nat) (d : PyStr) : Prop := limit = 0 ∨ d.length ≤ limit
instance (limit : Nat) (d : PyStr) : Decidable (FitsNumeral limit d) := inferInstanceAs (Decidable (_ ∨ _))

theorem digits_filter {d : PyStr} (hd : Digits d) : d.filter isDecimal = d := by
  rw [List.filter_eq_self]
  intro c hc
  exact (isDecimal_iff c).2 (hd.2 c hc)

theorem pyIntMax_digits (limit : Nat) {d : PyStr} (hd : Digits d) :
    pyIntMax limit d = if FitsNumeral limit d then .ok (number d : Int) else .error .valueError := by
  have e : pyIntMax limit d = if limit ≠ 0 ∧ limit < d.length then .error .valueError else .ok (number d : Int) := by
    unfold pyIntMax
    rw [pyInt_digits hd, digits_filter hd]
    rfl
  rw [e]
  by_cases h : FitsNumeral limit d
  · have h' : limit = 0 ∨ d.length ≤ limit := h
    rw [if_pos h, if_neg (by omega)]
  · have h' : ¬ (limit = 0 ∨ d.length ≤ limit) := h
    rw [if_neg h, if_pos (by omega)]

theorem mapAll_if {α β : Type} (f : α → Except PyErr β) (g : α → β) (Q : α → Prop) [DecidablePred Q] (e : PyErr) (l : List α)
    (h : ∀ x ∈ l, f x = if Q x then .ok (g x) else .error e) :
    mapAll f l = if ∀ x ∈ l, Q x then .ok (l.map g) else .error e := by
  induction l with
  | nil => simp [mapAll]
  | cons x l ih =>
    rw [mapAll, h x (by simp), ih (fun y hy => h y (List.mem_cons_of_mem _ hy))]
    by_cases hx : Q x
    · by_cases hl : ∀ y ∈ l, Q y
      · have hc : ∀ y ∈ x :: l, Q y := List.forall_mem_cons.2 ⟨hx, hl⟩
        rw [if_pos hx, if_pos hl, if_pos hc]
        rfl
      · have hc : ¬ ∀ y ∈ x :: l, Q y := fun h => hl (List.forall_mem_cons.1 h).2
        rw [if_pos hx, if_neg hl, if_neg hc]
        rfl
    · have hc : ¬ ∀ y ∈ x :: l, Q y := fun h => hx (List.forall_mem_cons.1 h).1
      rw [if_neg hx, if_neg hc]
      rfl

theorem parseMax_tag (limit : Nat) (cls : TagClass) {words : List PyStr} (hw : Lower words) {t : TagSpelling} (ht : t.WF words) :
    Tag.parseMax limit cls t.body = if ∀ d ∈ t.numerals, FitsNumeral limit d then tagMeaning cls t else .error .valueError := by
  have hph : t.phase ≠ [] ∧ ∀ c ∈ t.phase, IsLetter c := by
    obtain ⟨h1, h2⟩ := hw _ ht.phase
    refine ⟨by rintro h; rw [h] at h1; exact h1 rfl, ?_⟩
    intro c hc
    have := h2 (foldCase c) (List.mem_map_of_mem hc)
    unfold IsLetter
    have key : ∀ x ∈ "abcdefghijklmnopqrstuvwxyz".toList, 'a' ≤ x ∧ x ≤ 'z' := by decide
    exact key _ this
  obtain ⟨s, ph, v⟩ := t
  obtain ⟨m, h1, h2, h3⟩ := fullmatch_tag ph v hph ht.value
  have e : (TagSpelling.mk s ph v).body = ph ++ (TagSpelling.mk [] ph v).valueText := rfl
  unfold Tag.parseMax
  rw [e, h1]
  simp only [h2, h3]
  cases v with
  | none => rfl
  | some x =>
    obtain ⟨-, hd⟩ := ht.value x.1 x.2 rfl
    simp only [Option.map_some, pyIntMax_digits limit hd, TagSpelling.numerals, Option.toList_some, List.mem_singleton, forall_eq]
    by_cases hf : FitsNumeral limit x.2
    · rw [if_pos hf, if_pos hf]
      rfl
    · rw [if_neg hf, if_neg hf]
      rfl

theorem splitDot_release {m : PyStr} {l : List PyStr} (hm : Digits m) (hl : ∀ d ∈ l, Digits d) : splitDot (Spelling.releaseText m l) = m :: l := by
  have nd : ∀ d, Digits d → ∀ x ∈ d, decide (x = '.') = false := by
    intro d hd x hx
    rw [decide_eq_false_iff_not]
    rintro rfl
    exact digit_not_sep '.' (hd.2 _ hx) (by decide)
  have := splitAt_parts (· = '.') (l.map (fun d => ('.', d))) m (nd m hm) (by
    intro y hy
    rw [List.mem_map] at hy
    obtain ⟨d, hd, rfl⟩ := hy
    exact ⟨by simp, nd d (hl d hd)⟩)
  simp only [List.map_map] at this
  unfold splitDot Spelling.releaseText
  have e : (fun x : Char × PyStr => x.2) ∘ (fun d => ('.', d)) = id := rfl
  rw [e, List.map_id] at this
  exact this

theorem parseMax_release (limit : Nat) {m : PyStr} {l : List PyStr} (hm : Digits m) (hl : ∀ d ∈ l, Digits d) :
    Release.parseMax limit (Spelling.releaseText m l) =
      if ∀ d ∈ m :: l, FitsNumeral limit d then .ok ⟨(m :: l).map (fun d => (number d : Int))⟩ else .error .valueError := by
  have hall : ∀ d ∈ m :: l, pyIntMax limit d = if FitsNumeral limit d then .ok ((fun d => (number d : Int)) d) else .error .valueError := by
    intro d hd
    rcases List.mem_cons.1 hd with rfl | hd
    · exact pyIntMax_digits limit hm
    · exact pyIntMax_digits limit (hl d hd)
  unfold Release.parseMax
  rw [splitDot_release hm hl, mapAll_if _ _ _ _ _ hall]
  by_cases h : ∀ d ∈ m :: l, FitsNumeral limit d
  · rw [if_pos h, if_pos h]
    rfl
  · rw [if_neg h, if_neg h]
    rfl

theorem parseMax_part (limit : Nat) (s : PyStr) :
    LocalPart.parseMax limit s = if Digits s → FitsNumeral limit s then .ok (partMeaning s) else .error .valueError := by
  have e := parse_part s
  unfold LocalPart.parse at e
  unfold LocalPart.parseMax
  by_cases h : Digits s
  · have hall : (!s.isEmpty && s.all isDecimal) = true := digits_all h
    rw [hall] at e ⊢
    simp only [if_true, pyIntMax_digits limit h, pyInt_digits h] at e ⊢
    by_cases hf : FitsNumeral limit s
    · rw [if_pos hf, if_pos (fun _ => hf)]
      exact e
    · rw [if_neg hf, if_neg (fun h' => hf (h' h))]
      rfl
  · have hall : (!s.isEmpty && s.all isDecimal) = false := by
      rw [Bool.eq_false_iff]
      intro h'
      rw [Bool.and_eq_true, List.all_eq_true] at h'
      apply h
      refine ⟨?_, fun c hc => (isDecimal_iff c).1 (h'.2 c hc)⟩
      rintro rfl
      simp at h'
    rw [if_pos (fun h' => absurd h' h)]
    simp [hall, partMeaning, h]

theorem splitSeparators_local {l : LocalSpelling} (hl : AlphaNum l.1 ∧ ∀ x ∈ l.2, IsSep x.1 ∧ AlphaNum x.2) :
    splitSeparators (Spelling.localBody l) = l.1 :: l.2.map (·.2) := by
  let tr : Char → Char := fun c => if c = '-' ∨ c = '_' then '.' else c
  have htr : ∀ c, ¬ IsSep c → tr c = c := by
    intro c hc
    simp only [tr]
    rw [if_neg]
    rintro (rfl | rfl) <;> exact hc (by decide)
  have hmap : ∀ s, AlphaNum s → s.map tr = s := by
    intro s hs
    conv_rhs => rw [← List.map_id s]
    apply List.map_congr_left
    intro c hc
    exact htr c (alnum_not_sep c (hs.2 c hc))
  have nodot : ∀ s, AlphaNum s → ∀ x ∈ s, decide (x = '.') = false := by
    intro s hs x hx
    rw [decide_eq_false_iff_not]
    rintro rfl
    exact alnum_not_sep '.' (hs.2 _ hx) (by decide)
  have e : (Spelling.localBody l).map tr = l.1 ++ ((l.2.map (fun x => ('.', x.2))).map (fun x => x.1 :: x.2)).flatten := by
    unfold Spelling.localBody
    rw [List.map_append, hmap _ hl.1, List.map_flatten, List.map_map, List.map_map]
    congr 2
    apply List.map_congr_left
    intro x hx
    obtain ⟨h1, h2⟩ := hl.2 x hx
    simp only [Function.comp, List.map_cons, hmap _ h2, List.cons.injEq, and_true]
    rcases h1 with h1 | h1 | h1 <;> rw [h1] <;> decide
  unfold splitSeparators
  have e' : (Spelling.localBody l).map (fun c => if c = '-' ∨ c = '_' then '.' else c) = (Spelling.localBody l).map tr := rfl
  rw [e', e, splitAt_parts (· = '.') _ l.1 (nodot _ hl.1)]
  · rw [List.map_map]
    rfl
  · intro y hy
    rw [List.mem_map] at hy
    obtain ⟨x, hx, rfl⟩ := hy
    exact ⟨by simp, nodot _ (hl.2 x hx).2⟩

theorem parseMax_local (limit : Nat) {l : LocalSpelling} (hl : AlphaNum l.1 ∧ ∀ x ∈ l.2, IsSep x.1 ∧ AlphaNum x.2) :
    Local.parseMax limit (Spelling.localBody l) =
      if ∀ d ∈ l.1 :: l.2.map (fun x : Char × PyStr => x.2), Digits d → FitsNumeral limit d then .ok ⟨(l.1 :: l.2.map (·.2)).map partMeaning⟩ else .error .valueError := by
  unfold Local.parseMax
  rw [splitSeparators_local hl, mapAll_if _ _ _ _ _ (fun x _ => parseMax_part limit x)]
  by_cases h : ∀ d ∈ l.1 :: l.2.map (·.2), Digits d → FitsNumeral limit d
  · rw [if_pos h, if_pos h]
    rfl
  · rw [if_neg h, if_neg h]
    rfl

/-! ### versions -/

theorem optMeaning_cases (cls : TagClass) (t : Option TagSpelling) (ht : ∀ x, t = some x → x.WF (wordsOf cls)) :
    (∃ x, optMeaning (tagMeaning cls) t = .ok x) ∨ optMeaning (tagMeaning cls) t = .error .valueError := by
  cases t with
  | none => exact .inl ⟨none, rfl⟩
  | some t =>
    rcases tagMeaning_cases (ht t rfl) with ⟨-, x, h2⟩ | ⟨-, h2⟩
    · exact .inl ⟨some x, by simp only [optMeaning, h2]; rfl⟩
    · exact .inr (by simp only [optMeaning, h2]; rfl)

theorem optPost_cases (t : Option PostSpelling) (ht : ∀ x, t = some x → x.WF postWords) :
    (∃ x, optMeaning postMeaning t = .ok x) ∨ optMeaning postMeaning t = .error .valueError := by
  cases t with
  | none => exact .inl ⟨none, rfl⟩
  | some t =>
    cases t with
    | implicit d => exact .inl ⟨_, rfl⟩
    | tag t =>
      rcases tagMeaning_cases (cls := .post) (ht _ rfl) with ⟨-, x, h2⟩ | ⟨-, h2⟩
      · exact .inl ⟨some x, by simp only [optMeaning, postMeaning, h2]; rfl⟩
      · exact .inr (by simp only [optMeaning, postMeaning, h2]; rfl)

/-- Six steps each of which succeeds, or fails with `ValueError`. -/
theorem steps_if {A B C D E F G : Type} (P1 P2 P3 P4 P5 P6 : Prop) [Decidable P1] [Decidable P2] [Decidable P3] [Decidable P4] [Decidable P5] [Decidable P6]
    {y1 : Except PyErr A} {y2 : Except PyErr B} {y3 : Except PyErr C} {y4 : Except PyErr D} {y5 : Except PyErr E} {y6 : Except PyErr F}
    {x1 : A} {x2 : B} {x3 : Except PyErr C} {x4 : Except PyErr D} {x5 : Except PyErr E} {x6 : F}
    (e1 : y1 = if P1 then .ok x1 else .error .valueError) (e2 : y2 = if P2 then .ok x2 else .error .valueError)
    (e3 : y3 = if P3 then x3 else .error .valueError) (e4 : y4 = if P4 then x4 else .error .valueError)
    (e5 : y5 = if P5 then x5 else .error .valueError) (e6 : y6 = if P6 then .ok x6 else .error .valueError)
    (h3 : (∃ x, x3 = .ok x) ∨ x3 = .error .valueError) (h4 : (∃ x, x4 = .ok x) ∨ x4 = .error .valueError)
    (h5 : (∃ x, x5 = .ok x) ∨ x5 = .error .valueError) (f : A → B → C → D → E → F → G) :
    (do
      let a ← y1
      let b ← y2
      let c ← y3
      let d ← y4
      let e ← y5
      let g ← y6
      .ok (f a b c d e g) : Except PyErr G) =
    if P1 ∧ P2 ∧ P3 ∧ P4 ∧ P5 ∧ P6 then (do
      let c ← x3
      let d ← x4
      let e ← x5
      .ok (f x1 x2 c d e x6)) else .error .valueError := by
  by_cases p1 : P1
  swap
  · simp only [p1, if_false, false_and] at e1 ⊢; subst e1; rfl
  by_cases p2 : P2
  swap
  · simp only [p1, p2, if_false, if_true, false_and, true_and] at e1 e2 ⊢; subst e1 e2; rfl
  rcases h3 with ⟨a3, rfl⟩ | rfl <;> rcases h4 with ⟨a4, rfl⟩ | rfl <;> rcases h5 with ⟨a5, rfl⟩ | rfl <;>
    by_cases p3 : P3 <;> by_cases p4 : P4 <;> by_cases p5 : P5 <;> by_cases p6 : P6 <;>
    simp only [p1, p2, p3, p4, p5, p6, if_false, if_true, false_and, true_and] at e1 e2 e3 e4 e5 e6 ⊢ <;> subst e1 e2 e3 e4 e5 e6 <;> rfl

theorem fitsText_iff (limit : Nat) {p : Spelling} (hp : p.WF) {o : PyStr} (ho : ∀ c ∈ o, IsOpChar c) : FitsText limit (o ++ p.text) ↔
    (∀ d ∈ p.publicNumerals, FitsNumeral limit d) ∧ ∀ d ∈ p.localParts, Digits d → FitsNumeral limit d := by
  unfold FitsText FitsNumeral
  rw [numerals_text hp ho]
  simp only [List.mem_append, List.mem_filter, decide_eq_true_eq]
  constructor
  · rintro (h | h)
    · exact ⟨fun _ _ => .inl h, fun _ _ _ => .inl h⟩
    · exact ⟨fun d hd => .inr (h d (.inl hd)), fun d hd h' => .inr (h d (.inr ⟨hd, h'⟩))⟩
  · rintro ⟨h1, h2⟩
    by_cases h0 : limit = 0
    · exact .inl h0
    · refine .inr fun d hd => ?_
      rcases hd with hd | ⟨hd, h'⟩
      · exact (h1 d hd).resolve_left h0
      · exact (h2 d hd h').resolve_left h0

theorem parseMax_text (limit : Nat) {p : Spelling} (hp : p.WF) (gp : p.Greedy) :
    Version.parseMax limit p.text = if FitsText limit p.text then meaning p else .error .valueError := by
  have hfit := fitsText_iff limit hp (o := []) (by simp)
  rw [List.nil_append] at hfit
  obtain ⟨h1, h2, h3, h4, h5, h6⟩ := get_caps p
  have tag : ∀ (cls : TagClass) (words : List PyStr) (t : Option TagSpelling), Lower words → (∀ x, t = some x → x.WF words) →
      optionally (Tag.parseMax limit cls) (t.map (·.body)) =
        if ∀ d ∈ t.toList.flatMap TagSpelling.numerals, FitsNumeral limit d then optMeaning (tagMeaning cls) t else .error .valueError := by
    intro cls words t hw ht
    cases t with
    | none => rfl
    | some t =>
      simp only [Option.map_some, optionally, optMeaning, parseMax_tag limit cls hw (ht t rfl), Option.toList_some, List.flatMap_cons, List.flatMap_nil,
        List.append_nil]
      by_cases hf : ∀ d ∈ t.numerals, FitsNumeral limit d
      · rw [if_pos hf, if_pos hf]
      · rw [if_neg hf, if_neg hf]
        rfl
  have loc : optionally (Local.parseMax limit) (p.local_.map Spelling.localBody) =
      if ∀ d ∈ p.localParts, Digits d → FitsNumeral limit d then .ok (p.local_.map (fun l => (⟨(l.1 :: l.2.map (·.2)).map partMeaning⟩ : Local)))
      else .error .valueError := by
    cases hl : p.local_ with
    | none =>
      have : p.localParts = [] := by simp [Spelling.localParts, hl]
      rw [this, if_pos (by simp)]
      rfl
    | some l =>
      have : p.localParts = l.1 :: l.2.map (·.2) := by simp [Spelling.localParts, hl]
      rw [this]
      simp only [Option.map_some, optionally, parseMax_local limit (hp.local_ l hl)]
      by_cases hf : ∀ d ∈ l.1 :: l.2.map (·.2), Digits d → FitsNumeral limit d
      · rw [if_pos hf, if_pos hf]
        rfl
      · rw [if_neg hf, if_neg hf]
        rfl
  have ep : (match Re.get .epoch p.caps with
      | none => .ok {}
      | some s => Epoch.parseMax limit s : Except PyErr Epoch) =
      if ∀ d ∈ p.epoch.toList, FitsNumeral limit d then .ok ⟨(p.epoch.map number).getD 0⟩ else .error .valueError := by
    rw [h1]
    cases he : p.epoch with
    | none => rfl
    | some d =>
      simp only [Epoch.parseMax, pyIntMax_digits limit (hp.epoch d he), Option.toList_some, List.mem_singleton, forall_eq]
      by_cases hf : FitsNumeral limit d
      · rw [if_pos hf, if_pos hf]
        rfl
      · rw [if_neg hf, if_neg hf]
        rfl
  have po : (do
      let implicit ← optionally (fun s => do Tag.defaultPhaseWithValue .post (← pyIntMax limit s)) (Re.get .postImplicit p.caps)
      match implicit with
        | some t => .ok (some t)
        | none => optionally (Tag.parseMax limit .post) (Re.get .post p.caps) : Except PyErr (Option Tag)) =
      if ∀ d ∈ p.post.toList.flatMap PostSpelling.numerals, FitsNumeral limit d then optMeaning postMeaning p.post else .error .valueError := by
    cases hpost : p.post with
    | none =>
      rw [hpost] at h6
      simp only [h6.1, h6.2]
      rfl
    | some po =>
      rw [hpost] at h6
      cases po with
      | implicit d =>
        simp only at h6
        have hd : Digits d := hp.post _ hpost
        simp only [h6, optionally, pyIntMax_digits limit hd, Option.toList_some, List.flatMap_cons, List.flatMap_nil, List.append_nil, PostSpelling.numerals,
          List.mem_singleton, forall_eq]
        by_cases hf : FitsNumeral limit d
        · rw [if_pos hf, if_pos hf]
          rfl
        · rw [if_neg hf, if_neg hf]
          rfl
      | tag t =>
        simp only at h6
        have ht : t.WF postWords := hp.post _ hpost
        simp only [h6.1, h6.2, optionally, parseMax_tag limit .post postWords_lower ht, Option.toList_some, List.flatMap_cons, List.flatMap_nil,
          List.append_nil, PostSpelling.numerals, optMeaning, postMeaning]
        by_cases hf : ∀ d ∈ t.numerals, FitsNumeral limit d
        · rw [if_pos hf, if_pos hf]
          rfl
        · rw [if_neg hf, if_neg hf]
          rfl
  have re : (match Re.get .release p.caps with
      | none => .ok Release.default
      | some s => Release.parseMax limit s : Except PyErr Release) =
      if ∀ d ∈ p.major :: p.release, FitsNumeral limit d then .ok ⟨(p.major :: p.release).map (fun d => (number d : Int))⟩ else .error .valueError := by
    rw [h2]
    exact parseMax_release limit hp.major hp.release
  have key : Version.parseMax limit p.text = (do
      let epoch ← (match Re.get .epoch p.caps with
        | none => .ok {}
        | some s => Epoch.parseMax limit s : Except PyErr Epoch)
      let release ← (match Re.get .release p.caps with
        | none => .ok Release.default
        | some s => Release.parseMax limit s : Except PyErr Release)
      let pre ← optionally (Tag.parseMax limit .pre) (p.pre.map (·.body))
      let post ← (do
        let implicit ← optionally (fun s => do Tag.defaultPhaseWithValue .post (← pyIntMax limit s)) (Re.get .postImplicit p.caps)
        match implicit with
          | some t => .ok (some t)
          | none => optionally (Tag.parseMax limit .post) (Re.get .post p.caps) : Except PyErr (Option Tag))
      let dev ← optionally (Tag.parseMax limit .dev) (p.dev.map (·.body))
      let local_ ← optionally (Local.parseMax limit) (p.local_.map Spelling.localBody)
      .ok { epoch, release, pre, post, dev, local_ }) := by
    rw [← h3, ← h4, ← h5]
    unfold Version.parseMax
    rw [fullmatch_text hp gp]
    dsimp only
    generalize Re.get .epoch p.caps = a
    generalize Re.get .release p.caps = b
    generalize optionally (fun s => do Tag.defaultPhaseWithValue .post (← pyIntMax limit s)) (Re.get .postImplicit p.caps) = i
    cases a <;> cases b <;> rcases i with i | (_ | i) <;> rfl
  have := steps_if (G := Version) _ _ _ _ _ _ ep re (tag .pre _ _ preWords_lower hp.pre) po (tag .dev _ _ devWords_lower hp.dev) loc
    (optMeaning_cases .pre p.pre hp.pre) (optPost_cases p.post hp.post) (optMeaning_cases .dev p.dev hp.dev)
    (fun epoch release pre post dev local_ => { epoch, release, pre, post, dev, local_ })
  refine key.trans (Eq.trans ?_ (this.trans ?_))
  · generalize (match Re.get .epoch p.caps with
      | none => .ok {}
      | some s => Epoch.parseMax limit s : Except PyErr Epoch) = a
    rfl
  have hiff : ((∀ d ∈ p.epoch.toList, FitsNumeral limit d) ∧ (∀ d ∈ p.major :: p.release, FitsNumeral limit d) ∧
      (∀ d ∈ p.pre.toList.flatMap TagSpelling.numerals, FitsNumeral limit d) ∧ (∀ d ∈ p.post.toList.flatMap PostSpelling.numerals, FitsNumeral limit d) ∧
      (∀ d ∈ p.dev.toList.flatMap TagSpelling.numerals, FitsNumeral limit d) ∧ ∀ d ∈ p.localParts, Digits d → FitsNumeral limit d) ↔ FitsText limit p.text := by
    rw [hfit]
    unfold Spelling.publicNumerals
    simp only [List.forall_mem_append, and_assoc]
  simp only [hiff]
  rfl

/-- Parsing under a limit: the same, unless a numeral is too long. -/
theorem parseMax_eq (limit : Nat) (s : PyStr) : Version.parseMax limit s =
    match Version.parse s with
    | .ok v => if FitsText limit s then .ok v else .error .valueError
    | .error e => .error e := by
  by_cases hs : ∃ p : Spelling, p.WF ∧ s = p.text
  · obtain ⟨p, hp, gp, rfl⟩ := spelling_greedy.1 hs
    rw [parseMax_text limit hp gp, parse_text hp gp]
    rcases meaning_cases hp with ⟨-, v, e⟩ | ⟨-, e⟩
    · rw [e]
    · rw [e]
      simp
  · have h1 := (parse_no_spelling s).2 hs
    rw [h1]
    unfold Version.parseMax
    cases hm : fullmatch Pattern.version s with
    | none => rfl
    | some c =>
      obtain ⟨p, hp, gp, e, -⟩ := fullmatch_version hm
      exact absurd ⟨p, hp, e⟩ hs

end Verif
