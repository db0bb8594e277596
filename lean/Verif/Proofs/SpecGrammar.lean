import Verif.Proofs.OpPrinting
import Verif.Proofs.Specifiers
import Verif.Proofs.Splitting
import Verif.Spec.SpecifierText
/-!
# The grammar of specifier strings
-/

namespace Verif
open Re

/-- The spelling that is followed when reading. -/
theorem greedy_spelling {p : Spelling} (hp : p.WF) :
    ∃ q : Spelling, q.WF ∧ q.Greedy ∧ q.text = p.text ∧ q.local_ = p.local_ ∧ q.release = p.release ∧ (p.EndsInZero → q.EndsInZero) := by
  by_cases hg : p.Greedy
  · exact ⟨p, hp, hg, rfl, rfl, rfl, id⟩
  · unfold Spelling.Greedy at hg
    push Not at hg
    obtain ⟨t, d, ht, hd, hn⟩ := hg
    refine ⟨{ p with pre := some { t with value := some (['-'], d) }, post := none }, ?_, ?_, ?_, rfl, rfl, ?_⟩
    · refine ⟨hp.v, hp.epoch, hp.major, hp.release, ?_, ?_, hp.dev, hp.local_⟩
      · rintro _ ⟨⟩
        obtain ⟨h1, h2, -⟩ := hp.pre t ht
        refine ⟨h1, h2, ?_⟩
        rintro _ _ ⟨⟩
        exact ⟨.inr ⟨'-', rfl, by decide⟩, hp.post _ hd⟩
      · rintro _ ⟨⟩
    · rintro _ _ _ ⟨⟩
    · simp [Spelling.text, ht, hd, Spelling.optText, TagSpelling.text, TagSpelling.body, TagSpelling.valueText, hn, PostSpelling.text]
    · rintro ⟨h1, h2⟩
      refine ⟨h1, ?_⟩
      rw [hd, ht] at h2
      dsimp only at h2 ⊢
      cases hdev : p.dev with
      | some x => rw [hdev] at h2; exact h2
      | none =>
        rw [hdev] at h2
        dsimp only at h2 ⊢
        subst h2
        exact ⟨['-'], rfl⟩

theorem wild_of_text {p q : Spelling} (h : q.text = p.text) (c : Char) : q.wild c = p.wild c := by
  unfold Spelling.wild
  rw [h]

theorem lower_of {p : Spelling} (hp : p.WF) {v : Version} (h : p.Of v) : p.LowerCase := by
  rcases meaning_cases hp with ⟨h1, -⟩ | ⟨-, h2⟩
  · exact h1
  · rw [(meaning_ok hp v).2 h] at h2
    cases h2

namespace Specifier

theorem makeOne_bad {t : OpType} {p : Spelling} (hp : p.WF) (hg : p.Greedy) (hl : ¬ p.LowerCase) : makeOne t p.text = .error .valueError := by
  unfold makeOne
  rw [(parse_value_error _).2 ⟨p, hp, hg, rfl, hl⟩]
  rfl

theorem lastIndex_of {p : Spelling} {v : Version} (h : p.Of v) : v.lastIndex = 0 ↔ p.release = [] := by
  have : v.lastIndex = (p.release.length : Int) := by
    simp [Version.lastIndex, Release.lastIndex, Release.precision, h.release]
  rw [this]
  cases p.release with
  | nil => simp
  | cons a l => simp; omega

theorem makeOne_good {t : OpType} {p : Spelling} (hp : p.WF) (hg : p.Greedy) {v : Version} (h : p.Of v) :
    makeOne t p.text = if t = .tildeEqual ∧ p.release = [] then .error .valueError else .ok (.one ⟨t, v⟩) := by
  have h1 : Version.parse p.text = .ok v := (parse_ok_iff _ _).2 ⟨p, hp, hg, rfl, h⟩
  unfold makeOne mkOne
  rw [h1]
  show (do Except.ok (Specifier.one (← Operator.create t v))) = _
  unfold Operator.create
  simp only [lastIndex_of h]
  split <;> rfl

theorem makeOne_lower {t : OpType} {p : Spelling} (hp : p.WF) (hg : p.Greedy) : (∃ v, p.Of v) ∨ ¬ p.LowerCase := by
  rcases meaning_cases hp with ⟨-, v, e⟩ | ⟨h, -⟩
  · exact .inl ⟨v, (meaning_ok hp v).1 e⟩
  · exact .inr h

theorem not_tilde_equal {o : PyStr} {t : OpType} (h : (o, t) ∈ equalWords) : t ≠ .tildeEqual := by
  have : ∀ e ∈ equalWords, e.2 ≠ .tildeEqual := by decide
  exact this _ h

theorem not_tilde_wildcard {o : PyStr} {t : OpType} (h : (o, t) ∈ wildcardWords) : t ≠ .tildeEqual := by
  have : ∀ e ∈ wildcardWords, e.2 ≠ .tildeEqual := by decide
  exact this _ h

theorem single_of {s : PyStr} {op : Operator} (h : SingleOf s op) : parseSingle s = .ok (.one op) := by
  cases h with
  | compare ho hp hg hl hv ht =>
    rw [single_compare ho hp hl, makeOne_good hp hg hv, if_neg]
    rintro ⟨h1, h2⟩
    exact ht h1 h2
  | equal ho hp hg hv =>
    rw [single_equal ho hp, makeOne_good hp hg hv, if_neg]
    exact fun h => not_tilde_equal ho h.1
  | wildcard ho hp hg hz hc hv =>
    rw [single_wildcard ho hp hz hc, makeOne_good hp hg hv, if_neg]
    exact fun h => not_tilde_wildcard ho h.1

theorem single_bad {s : PyStr} (h : BadValue s) : parseSingle s = .error .valueError := by
  cases h with
  | @compare o t p ho hp hg hl hv =>
    rw [single_compare ho hp hl]
    rcases makeOne_lower (t := t) hp hg with ⟨v, h⟩ | h
    · rcases hv with h' | h'
      · exact absurd (lower_of hp h) h'
      · rw [makeOne_good hp hg h, if_pos h']
    · exact makeOne_bad hp hg h
  | equal ho hp hg hl => rw [single_equal ho hp, makeOne_bad hp hg hl]
  | wildcard ho hp hg hz hc hl => rw [single_wildcard ho hp hz hc, makeOne_bad hp hg hl]

theorem single_upper {s : PyStr} (h : UpperWildcard s) : parseSingle s = .error .parseVersionError := by
  obtain ⟨o, t, p, ho, hp, hz, rfl⟩ := h
  exact single_upper_wildcard ho hp hz

/-- The four cases. -/
theorem single_four (s : PyStr) :
    (SingleForm s ∧ ((∃ op, SingleOf s op) ∨ BadValue s ∨ UpperWildcard s)) ∨ (¬ SingleForm s ∧ parseSingle s = .error .parseSpecificationError) := by
  have form : SingleForm s → (∃ op, SingleOf s op) ∨ BadValue s ∨ UpperWildcard s := by
    intro h
    cases h with
    | @compare o t p ho hp hl =>
      obtain ⟨q, hq, gq, e, e1, e2, -⟩ := greedy_spelling hp
      rw [← e]
      rcases makeOne_lower (t := t) hq gq with ⟨v, h⟩ | h
      · by_cases ht : t = .tildeEqual ∧ q.release = []
        · exact .inr (.inl (.compare ho hq gq (e1.trans hl) (.inr ht)))
        · exact .inl ⟨_, .compare ho hq gq (e1.trans hl) h (fun h1 h2 => ht ⟨h1, h2⟩)⟩
      · exact .inr (.inl (.compare ho hq gq (e1.trans hl) (.inl h)))
    | @equal o t p ho hp =>
      obtain ⟨q, hq, gq, e, -⟩ := greedy_spelling hp
      rw [← e]
      rcases makeOne_lower (t := t) hq gq with ⟨v, h⟩ | h
      · exact .inl ⟨_, .equal ho hq gq h⟩
      · exact .inr (.inl (.equal ho hq gq h))
    | @wildcard o t p c ho hp hz hc =>
      obtain ⟨q, hq, gq, e, -, -, hz'⟩ := greedy_spelling hp
      rw [← wild_of_text e]
      rcases hc with hc | hc | hc
      · rcases makeOne_lower (t := t) hq gq with ⟨v, h⟩ | h
        · exact .inl ⟨_, .wildcard ho hq gq (hz' hz) (.inl hc) h⟩
        · exact .inr (.inl (.wildcard ho hq gq (hz' hz) (.inl hc) h))
      · subst hc
        exact .inr (.inr ⟨o, t, q, ho, hq, hz' hz, rfl⟩)
      · rcases makeOne_lower (t := t) hq gq with ⟨v, h⟩ | h
        · exact .inl ⟨_, .wildcard ho hq gq (hz' hz) (.inr hc) h⟩
        · exact .inr (.inl (.wildcard ho hq gq (hz' hz) (.inr hc) h))
  by_cases hf : SingleForm s
  · exact .inl ⟨hf, form hf⟩
  · refine .inr ⟨hf, ?_⟩
    rcases single_cases s with ⟨o, t, p, h1, h2, h3, rfl⟩ | ⟨o, t, p, h1, h2, rfl⟩ | ⟨o, t, p, c, h1, h2, h3, h4, rfl⟩ | h
    · exact absurd (.compare h1 h2 h3) hf
    · exact absurd (.equal h1 h2) hf
    · exact absurd (.wildcard h1 h2 h3 h4) hf
    · exact h

theorem single_ok_iff (s : PyStr) (x : Specifier) : parseSingle s = .ok x ↔ ∃ op, SingleOf s op ∧ x = .one op := by
  constructor
  · intro h
    rcases single_four s with ⟨-, ⟨op, ho⟩ | hb | hu⟩ | ⟨-, hn⟩
    · rw [single_of ho] at h
      cases h
      exact ⟨op, ho, rfl⟩
    · rw [single_bad hb] at h; cases h
    · rw [single_upper hu] at h; cases h
    · rw [hn] at h; cases h
  · rintro ⟨op, h, rfl⟩
    exact single_of h

theorem single_spec_error (s : PyStr) : parseSingle s = .error .parseSpecificationError ↔ ¬ SingleForm s := by
  rcases single_four s with ⟨hf, ⟨op, ho⟩ | hb | hu⟩ | ⟨hf, hn⟩
  · rw [single_of ho]; exact ⟨fun h => (by cases h), fun h => absurd hf h⟩
  · rw [single_bad hb]; exact ⟨fun h => (by cases h), fun h => absurd hf h⟩
  · rw [single_upper hu]; exact ⟨fun h => (by cases h), fun h => absurd hf h⟩
  · exact ⟨fun _ => hf, fun _ => hn⟩

theorem single_version_error (s : PyStr) : parseSingle s = .error .parseVersionError ↔ UpperWildcard s := by
  refine ⟨fun h => ?_, single_upper⟩
  rcases single_four s with ⟨-, ⟨op, ho⟩ | hb | hu⟩ | ⟨-, hn⟩
  · rw [single_of ho] at h; cases h
  · rw [single_bad hb] at h; cases h
  · exact hu
  · rw [hn] at h; cases h

theorem single_value_error (s : PyStr) : parseSingle s = .error .valueError ↔ BadValue s := by
  refine ⟨fun h => ?_, single_bad⟩
  rcases single_four s with ⟨-, ⟨op, ho⟩ | hb | hu⟩ | ⟨-, hn⟩
  · rw [single_of ho] at h; cases h
  · exact hb
  · rw [single_upper hu] at h; cases h
  · rw [hn] at h; cases h

theorem single_errors (s : PyStr) : (∃ op, parseSingle s = .ok (.one op)) ∨ parseSingle s = .error .parseSpecificationError ∨
    parseSingle s = .error .parseVersionError ∨ parseSingle s = .error .valueError := by
  rcases single_four s with ⟨-, ⟨op, ho⟩ | hb | hu⟩ | ⟨-, hn⟩
  · exact .inl ⟨op, single_of ho⟩
  · exact .inr (.inr (.inr (single_bad hb)))
  · exact .inr (.inr (.inl (single_upper hu)))
  · exact .inr (.inl hn)

end Specifier

/-! ### lists of parts -/

theorem mapAll_ok_iff {α β : Type} (f : α → Except PyErr β) : ∀ (l : List α) (ys : List β),
    mapAll f l = .ok ys ↔ List.Forall₂ (fun a b => f a = .ok b) l ys := by
  intro l
  induction l with
  | nil => intro ys; cases ys <;> simp [mapAll]
  | cons a l ih =>
    intro ys
    rw [mapAll]
    cases ha : f a with
    | error e =>
      constructor
      · intro h; cases h
      · intro h
        cases h with
        | cons h1 h2 => rw [ha] at h1; cases h1
    | ok b =>
      cases hl : mapAll f l with
      | error e =>
        constructor
        · intro h; cases h
        · intro h
          cases h with
          | cons h1 h2 => rw [(ih _).2 h2] at hl; cases hl
      | ok bs =>
        constructor
        · intro h
          cases h
          exact .cons ha ((ih bs).1 hl)
        · intro h
          cases h with
          | cons h1 h2 =>
            rw [ha] at h1
            rw [(ih _).2 h2] at hl
            cases h1; cases hl
            rfl

theorem mapAll_error_iff {α β : Type} (f : α → Except PyErr β) (e : PyErr) : ∀ (l : List α),
    mapAll f l = .error e ↔ ∃ l1 a l2, l = l1 ++ a :: l2 ∧ (∀ x ∈ l1, ∃ y, f x = .ok y) ∧ f a = .error e := by
  intro l
  induction l with
  | nil => simp [mapAll]
  | cons a l ih =>
    rw [mapAll]
    cases ha : f a with
    | error e' =>
      constructor
      · intro h
        cases h
        exact ⟨[], a, l, rfl, by simp, ha⟩
      · rintro ⟨l1, x, l2, h1, h2, h3⟩
        cases l1 with
        | nil => cases h1; rw [ha] at h3; cases h3; rfl
        | cons y l1 =>
          cases h1
          obtain ⟨z, hz⟩ := h2 a (by simp)
          rw [ha] at hz; cases hz
    | ok b =>
      have : (do let b ← (.ok b : Except PyErr β); let bs ← mapAll f l; .ok (b :: bs)) = .error e ↔ mapAll f l = .error e := by
        cases hl : mapAll f l with
        | error e' => exact ⟨fun h => (by cases h; rfl), fun h => (by cases h; rfl)⟩
        | ok bs => exact ⟨fun h => (by cases h), fun h => (by cases h)⟩
      rw [this, ih]
      constructor
      · rintro ⟨l1, x, l2, rfl, h2, h3⟩
        refine ⟨a :: l1, x, l2, rfl, ?_, h3⟩
        intro y hy
        rcases List.mem_cons.1 hy with rfl | hy
        · exact ⟨b, ha⟩
        · exact h2 y hy
      · rintro ⟨l1, x, l2, h1, h2, h3⟩
        cases l1 with
        | nil => cases h1; rw [ha] at h3; cases h3
        | cons y l1 =>
          cases h1
          exact ⟨l1, x, l2, rfl, fun z hz => h2 z (by simp [hz]), h3⟩

theorem forall₂_left {α β : Type} {r : α → β → Prop} {l : List α} {m : List β} (h : List.Forall₂ r l m) {a : α} (ha : a ∈ l) : ∃ b, b ∈ m ∧ r a b := by
  induction h with
  | nil => cases ha
  | cons h1 _ ih =>
    rcases List.mem_cons.1 ha with rfl | ha
    · exact ⟨_, by simp, h1⟩
    · obtain ⟨b, hb, h⟩ := ih ha
      exact ⟨b, by simp [hb], h⟩

theorem forall₂_right {α β : Type} {r : α → β → Prop} {l : List α} {m : List β} (h : List.Forall₂ r l m) {b : β} (hb : b ∈ m) : ∃ a, a ∈ l ∧ r a b := by
  induction h with
  | nil => cases hb
  | cons h1 _ ih =>
    rcases List.mem_cons.1 hb with rfl | hb
    · exact ⟨_, by simp, h1⟩
    · obtain ⟨a, ha, h⟩ := ih hb
      exact ⟨a, by simp [ha], h⟩

/-- Every string is its parts, with commas between. -/
theorem comma_parts (s : PyStr) : ∃ a l, s = a ++ (l.map (',' :: ·)).flatten ∧ splitComma s = a :: l := by
  unfold splitComma
  induction s with
  | nil => exact ⟨[], [], rfl, rfl⟩
  | cons c s ih =>
    obtain ⟨a, l, e, h⟩ := ih
    rw [splitAt, h]
    by_cases hc : c = ','
    · subst hc
      exact ⟨[], a :: l, by simp [e], by simp⟩
    · exact ⟨c :: a, l, by simp [e], by simp [hc]⟩

theorem splitComma_parts (a : PyStr) (l : List PyStr) (ha : ',' ∉ a) (hl : ∀ x ∈ l, ',' ∉ x) :
    splitComma (a ++ (l.map (',' :: ·)).flatten) = a :: l := by
  have := splitAt_parts (· = ',') (l.map (fun x => (',', x))) a (fun x hx => decide_eq_false (by rintro rfl; exact ha hx)) (by
    intro y hy
    obtain ⟨x, hx, rfl⟩ := List.mem_map.1 hy
    exact ⟨by simp, fun c hc => decide_eq_false (by rintro rfl; exact hl x hx hc)⟩)
  rw [List.map_map, List.map_map] at this
  have e : List.map ((fun x : Char × PyStr => x.2) ∘ fun x => (',', x)) l = l := (List.map_congr_left (g := id) (fun x _ => rfl)).trans (List.map_id l)
  rw [e] at this
  exact this

/-- Every string is its parts, with `|` or `||` between. -/
theorem pipe_parts (s : PyStr) : ∃ a l, s = pipes a l ∧ splitPipes s = a :: l.map (·.2) := by
  unfold splitPipes
  induction s using replacePipes.induct with
  | case1 s ih =>
    obtain ⟨a, l, e, h⟩ := ih
    refine ⟨[], (true, a) :: l, by simp [pipes, e], ?_⟩
    rw [replacePipes, splitAt, h]
    rfl
  | case2 c s hn ih =>
    obtain ⟨a, l, e, h⟩ := ih
    rw [replacePipes, splitAt, h]
    rotate_left
    · exact hn
    by_cases hc : c = '|'
    · subst hc
      exact ⟨[], (false, a) :: l, by simp [pipes, e], by simp⟩
    · refine ⟨c :: a, l, ?_, by simp [hc]⟩
      subst e
      cases l with
      | nil => rfl
      | cons x l => simp [pipes]
  | case3 => exact ⟨[], [], rfl, rfl⟩

/-! ### strings of single specifiers have no whitespace, commas or pipes -/

theorem SingleForm.plain {s : PyStr} (h : SingleForm s) : Plain s := by
  have ops : (∀ e ∈ compareWords, ∀ c ∈ e.1, IsOpChar c) ∧ (∀ e ∈ equalWords, ∀ c ∈ e.1, IsOpChar c) ∧ (∀ e ∈ wildcardWords, ∀ c ∈ e.1, IsOpChar c) := by
    decide
  cases h with
  | compare ho hp hl => exact Plain.append (op_plain (ops.1 _ ho)) (fun c hc => text_specials hp hc)
  | equal ho hp => exact Plain.append (op_plain (ops.2.1 _ ho)) (fun c hc => text_specials hp hc)
  | wildcard ho hp hz hc => exact Plain.append (op_plain (ops.2.2 _ ho)) (wild_plain hp hc)

theorem SingleOf.form {s : PyStr} {op : Operator} (h : SingleOf s op) : SingleForm s := by
  cases h with
  | compare ho hp hg hl hv ht => exact .compare ho hp hl
  | equal ho hp hg hv => exact .equal ho hp
  | wildcard ho hp hg hz hc hv => exact .wildcard ho hp hz (hc.elim .inl (fun h => .inr (.inr h)))

theorem SingleForm.ne_nil {s : PyStr} (h : SingleForm s) : s ≠ [] := by
  rintro rfl
  have h1 : Specifier.parseSingle [] = .error .parseSpecificationError := by rfl
  exact (Specifier.single_spec_error []).1 h1 h

namespace Specifier

theorem ofAll_eq (ops : List Operator) (h : ops ≠ []) : allOf (ops.map .one) = .ok (ofAll ops) := by
  match ops, h with
  | [o], _ => rfl
  | a :: b :: l, _ => rfl

theorem ofAny_eq (gs : List (List Operator)) (h : gs ≠ []) : anyOf (gs.map ofAll) = .ok (ofAny gs) := by
  match gs, h with
  | [o], _ => rfl
  | a :: b :: l, _ => rfl

theorem forall₂_map_right {α β γ : Type} {r : α → β → Prop} {f : γ → β} {l : List α} : ∀ {m : List γ},
    List.Forall₂ (fun a c => r a (f c)) l m → List.Forall₂ r l (m.map f) := by
  intro m h
  induction h with
  | nil => exact .nil
  | cons h1 _ ih => exact .cons h1 ih

theorem forall₂_choose {α β γ : Type} {r : α → β → Prop} {f : γ → β} {l : List α} {bs : List β} {q : α → γ → Prop}
    (h : List.Forall₂ r l bs) (hq : ∀ a b, r a b → ∃ c, q a c ∧ b = f c) : ∃ cs, List.Forall₂ q l cs ∧ bs = cs.map f := by
  induction h with
  | nil => exact ⟨[], .nil, rfl⟩
  | cons h1 _ ih =>
    obtain ⟨cs, h2, rfl⟩ := ih
    obtain ⟨c, h3, rfl⟩ := hq _ _ h1
    exact ⟨c :: cs, .cons h3 h2, rfl⟩

theorem all_ok_iff (s : PyStr) (x : Specifier) : parseAll s = .ok x ↔ ∃ ops, AllOf s ops ∧ x = ofAll ops := by
  constructor
  · intro h
    obtain ⟨a, l, e, hs⟩ := comma_parts s
    unfold parseAll at h
    rw [hs] at h
    cases hm : mapAll parseSingle (a :: l) with
    | error e => rw [hm] at h; cases h
    | ok xs =>
      rw [hm] at h
      obtain ⟨ops, h1, rfl⟩ := forall₂_choose ((mapAll_ok_iff _ _ _).1 hm) (fun s x h => (single_ok_iff s x).1 h)
      have hne : ops ≠ [] := by rintro rfl; cases h1
      refine ⟨ops, ⟨a, l, e, h1⟩, ?_⟩
      have h : allOf (ops.map .one) = .ok x := h
      rw [ofAll_eq ops hne] at h
      cases h
      rfl
  · rintro ⟨ops, ⟨a, l, rfl, h⟩, rfl⟩
    have hpl : ∀ w ∈ a :: l, ',' ∉ w := by
      intro w hw
      obtain ⟨op, -, ho⟩ := forall₂_left h hw
      exact fun hc => ho.form.plain _ hc (by decide)
    unfold parseAll
    rw [splitComma_parts a l (hpl a (by simp)) (fun x hx => hpl x (by simp [hx]))]
    have hm : mapAll parseSingle (a :: l) = .ok (ops.map .one) :=
      (mapAll_ok_iff _ _ _).2 (forall₂_map_right (h.imp (fun _ _ h => single_of h)))
    have hne : ops ≠ [] := by rintro rfl; cases h
    rw [hm]
    exact ofAll_eq ops hne

end Specifier

theorem AllOf.no_pipe {s : PyStr} {ops : List Operator} (h : AllOf s ops) : (∀ c ∈ s, c ≠ '|') ∧ s ≠ [] := by
  obtain ⟨a, l, rfl, h⟩ := h
  have hpl : ∀ w ∈ a :: l, SingleForm w := by
    intro w hw
    obtain ⟨op, -, ho⟩ := forall₂_left h hw
    exact ho.form
  refine ⟨?_, ?_⟩
  · rintro c hc rfl
    rcases List.mem_append.1 hc with hc | hc
    · exact (hpl a (by simp)).plain _ hc (by decide)
    · obtain ⟨w, hw, hc⟩ := List.mem_flatten.1 hc
      obtain ⟨x, hx, rfl⟩ := List.mem_map.1 hw
      rcases List.mem_cons.1 hc with hc | hc
      · revert hc; decide
      · exact (hpl x (by simp [hx])).plain _ hc (by decide)
  · intro e
    exact (hpl a (by simp)).ne_nil (List.append_eq_nil_iff.1 e).1

namespace Specifier

theorem any_ok_iff (s : PyStr) (x : Specifier) : parseAny s = .ok x ↔ ∃ gs, AnyOf s gs ∧ x = ofAny gs := by
  constructor
  · intro h
    obtain ⟨a, l, e, hs⟩ := pipe_parts s
    unfold parseAny at h
    rw [hs] at h
    cases hm : mapAll parseAll (a :: l.map (·.2)) with
    | error e => rw [hm] at h; cases h
    | ok xs =>
      rw [hm] at h
      obtain ⟨gs, h1, rfl⟩ := forall₂_choose ((mapAll_ok_iff _ _ _).1 hm) (fun s x h => (all_ok_iff s x).1 h)
      have hne : gs ≠ [] := by rintro rfl; cases h1
      refine ⟨gs, ⟨a, l, e, h1⟩, ?_⟩
      have h : anyOf (gs.map ofAll) = .ok x := h
      rw [ofAny_eq gs hne] at h
      cases h
      rfl
  · rintro ⟨gs, ⟨a, l, rfl, h⟩, rfl⟩
    have hpl : ∀ w ∈ a :: l.map (·.2), (∀ c ∈ w, c ≠ '|') ∧ w ≠ [] := by
      intro w hw
      obtain ⟨g, -, hg⟩ := forall₂_left h hw
      exact hg.no_pipe
    unfold parseAny
    rw [splitPipes_pipes l a (hpl a (by simp)).1 (fun x hx => (hpl x.2 (List.mem_cons_of_mem _ (List.mem_map_of_mem hx))).1)
      (fun x hx => (hpl x.2 (List.mem_cons_of_mem _ (List.mem_map_of_mem (List.dropLast_subset _ hx)))).2)]
    have hm : mapAll parseAll (a :: l.map (·.2)) = .ok (gs.map ofAll) :=
      (mapAll_ok_iff _ _ _).2 (forall₂_map_right (h.imp (fun w g h => (all_ok_iff w _).2 ⟨g, h, rfl⟩)))
    have hne : gs ≠ [] := by rintro rfl; cases h
    rw [hm]
    exact ofAny_eq gs hne

theorem parse_ok_iff' (s : PyStr) (x : Specifier) :
    parse s = .ok x ↔ ∃ gs, AnyOf (s.filter (fun c => !isSpace c)) gs ∧ x = ofAny gs := by
  unfold parse
  rw [clearWhitespace_eq]
  exact any_ok_iff _ _

/-! ### whole strings -/

theorem allOf_ok (xs : List Specifier) : ∃ y, allOf xs = .ok y := by
  match xs with
  | [] => exact ⟨_, rfl⟩
  | [_] => exact ⟨_, rfl⟩
  | _ :: _ :: _ => exact ⟨_, rfl⟩

theorem anyOf_ok (xs : List Specifier) : ∃ y, anyOf xs = .ok y := by
  match xs with
  | [] => exact ⟨_, rfl⟩
  | [_] => exact ⟨_, rfl⟩
  | _ :: _ :: _ => exact ⟨_, rfl⟩

theorem clear_no {s : PyStr} {x : Char} (h : x ∉ s) : x ∉ clearWhitespace s := by
  rw [clearWhitespace_eq]
  exact fun hc => h (List.mem_filter.1 hc).1

theorem parse_no_pipe {s : PyStr} (h : '|' ∉ s) : parse s = parseAll (clearWhitespace s) := by
  unfold parse parseAny
  have : splitPipes (clearWhitespace s) = [clearWhitespace s] :=
    splitPipes_pipes [] _ (fun c hc e => clear_no h (e ▸ hc)) (by simp) (by simp)
  rw [this]
  simp only [mapAll]
  cases parseAll (clearWhitespace s) <;> rfl

theorem all_no_comma {s : PyStr} (h : ',' ∉ s) : parseAll s = parseSingle s := by
  unfold parseAll
  have := splitComma_parts s [] h (by simp)
  simp only [List.map_nil, List.flatten_nil, List.append_nil] at this
  rw [this]
  simp only [mapAll]
  cases parseSingle s <;> rfl

theorem parse_plainish {s : PyStr} (h1 : ',' ∉ s) (h2 : '|' ∉ s) : parse s = parseSingle (s.filter (fun c => !isSpace c)) := by
  rw [parse_no_pipe h2, all_no_comma (clear_no h1), clearWhitespace_eq]

theorem clear_commas (l : List PyStr) : clearWhitespace (l.map (',' :: ·)).flatten = ((l.map clearWhitespace).map (',' :: ·)).flatten := by
  induction l with
  | nil => rfl
  | cons a l ih =>
    simp only [List.map_cons, List.flatten_cons]
    rw [clear_append, ih]
    congr 1
    exact clear_append [','] a

theorem parse_commas {a : PyStr} {l : List PyStr} (ha : ',' ∉ a ∧ '|' ∉ a) (hl : ∀ x ∈ l, ',' ∉ x ∧ '|' ∉ x) :
    parse (a ++ (l.map (',' :: ·)).flatten) = (mapAll parse (a :: l)).bind allOf := by
  have hno : '|' ∉ a ++ (l.map (',' :: ·)).flatten := by
    intro h
    rcases List.mem_append.1 h with h | h
    · exact ha.2 h
    · obtain ⟨w, hw, hc⟩ := List.mem_flatten.1 h
      obtain ⟨x, hx, rfl⟩ := List.mem_map.1 hw
      rcases List.mem_cons.1 hc with hc | hc
      · revert hc; decide
      · exact (hl x hx).2 hc
  have hm : ∀ l : List PyStr, (∀ x ∈ l, ',' ∉ x ∧ '|' ∉ x) → mapAll parse l = mapAll parseSingle (l.map clearWhitespace) := by
    intro l hl
    induction l with
    | nil => rfl
    | cons a l ih =>
      have h := hl a (by simp)
      rw [List.map_cons, mapAll, mapAll, parse_plainish h.1 h.2, ih (fun x hx => hl x (by simp [hx])), clearWhitespace_eq]
  rw [parse_no_pipe hno, clear_append, clear_commas]
  unfold parseAll
  rw [splitComma_parts _ _ (clear_no ha.1), hm (a :: l)]
  · rfl
  · intro x hx
    rcases List.mem_cons.1 hx with rfl | hx
    · exact ha
    · exact hl x hx
  · intro x hx
    obtain ⟨y, hy, rfl⟩ := List.mem_map.1 hx
    exact clear_no (hl y hy).1

theorem mapAll_errors {α β : Type} (f : α → Except PyErr β) (Q : PyErr → Prop) (h : ∀ a e, f a = .error e → Q e) (l : List α) (e : PyErr)
    (he : mapAll f l = .error e) : Q e := by
  obtain ⟨-, a, -, -, -, h3⟩ := (mapAll_error_iff f e l).1 he
  exact h a e h3

theorem parse_errors (s : PyStr) : (∃ x, parse s = .ok x) ∨ parse s = .error .parseSpecificationError ∨
    parse s = .error .parseVersionError ∨ parse s = .error .valueError := by
  let Q : PyErr → Prop := fun e => e = .parseSpecificationError ∨ e = .parseVersionError ∨ e = .valueError
  have h1 : ∀ s e, parseSingle s = .error e → Q e := by
    intro s e h
    rcases single_errors s with ⟨op, h'⟩ | h' | h' | h' <;> rw [h'] at h <;> cases h
    · exact .inl rfl
    · exact .inr (.inl rfl)
    · exact .inr (.inr rfl)
  have h2 : ∀ s e, parseAll s = .error e → Q e := by
    intro s e h
    unfold parseAll at h
    cases hm : mapAll parseSingle (splitComma s) with
    | error e' =>
      rw [hm] at h
      cases h
      exact mapAll_errors _ Q h1 _ _ hm
    | ok xs =>
      rw [hm] at h
      obtain ⟨y, hy⟩ := allOf_ok xs
      have h : allOf xs = .error e := h
      rw [hy] at h
      cases h
  have h3 : ∀ s e, parseAny s = .error e → Q e := by
    intro s e h
    unfold parseAny at h
    cases hm : mapAll parseAll (splitPipes s) with
    | error e' =>
      rw [hm] at h
      cases h
      exact mapAll_errors _ Q h2 _ _ hm
    | ok xs =>
      rw [hm] at h
      obtain ⟨y, hy⟩ := anyOf_ok xs
      have h : anyOf xs = .error e := h
      rw [hy] at h
      cases h
  unfold parse
  cases h : parseAny (clearWhitespace s) with
  | ok x => exact .inl ⟨x, rfl⟩
  | error e => rcases h3 _ _ h with rfl | rfl | rfl <;> simp

theorem single_valid {s : PyStr} {op : Operator} (h : SingleOf s op) : (Specifier.one op).Valid ∧ op.version.Canonical := by
  cases h with
  | compare ho hp hg hl hv ht =>
    refine ⟨.one (canonical_of hp hv).valid (fun h => ?_), canonical_of hp hv⟩
    have := ht h
    simp only [Release.precision, hv.release, List.length_map, List.length_cons]
    have := List.length_pos_iff.2 this
    omega
  | equal ho hp hg hv => exact ⟨.one (canonical_of hp hv).valid (fun h => absurd h (not_tilde_equal ho)), canonical_of hp hv⟩
  | wildcard ho hp hg hz hc hv => exact ⟨.one (canonical_of hp hv).valid (fun h => absurd h (not_tilde_wildcard ho)), canonical_of hp hv⟩

theorem ofAll_valid {s : PyStr} {ops : List Operator} (h : AllOf s ops) : (ofAll ops).Valid := by
  obtain ⟨a, l, -, h⟩ := h
  have hv : ∀ op ∈ ops, (Specifier.one op).Valid := fun op ho => by
    obtain ⟨w, -, hw⟩ := forall₂_right h ho
    exact (single_valid hw).1
  match ops, h, hv with
  | [o], _, hv => exact hv o (by simp)
  | o :: o' :: l, _, hv =>
    refine .all (by simp) ?_
    intro s hs
    obtain ⟨op, ho, rfl⟩ := List.mem_map.1 hs
    exact hv op ho

theorem ofAny_valid {s : PyStr} {gs : List (List Operator)} (h : AnyOf s gs) : (ofAny gs).Valid := by
  obtain ⟨a, l, -, h⟩ := h
  have hv : ∀ g ∈ gs, (ofAll g).Valid := fun g hg => by
    obtain ⟨w, -, hw⟩ := forall₂_right h hg
    exact ofAll_valid hw
  match gs, h, hv with
  | [o], _, hv => exact hv o (by simp)
  | o :: o' :: l, _, hv =>
    refine .any (by simp) ?_
    intro s hs
    obtain ⟨op, ho, rfl⟩ := List.mem_map.1 hs
    exact hv op ho

theorem allAccepts_ones {ops : List Operator} (hv : ∀ op ∈ ops, (Specifier.one op).Valid) (v : Version) :
    ∃ b, allAccepts (ops.map .one) v = .ok b ∧ (b = true ↔ ∀ op ∈ ops, op.accepts v = .ok true) := by
  induction ops with
  | nil => exact ⟨true, by rw [List.map_nil, allAccepts], by simp⟩
  | cons a l ih =>
    obtain ⟨b, b1, b2⟩ := ih (fun op ho => hv op (by simp [ho]))
    obtain ⟨c, hc⟩ := accepts_total (hv a (by simp)) v
    have hc' : a.accepts v = .ok c := by rw [← hc, accepts]
    rw [List.map_cons, allAccepts, hc]
    cases c with
    | true => exact ⟨b, b1, by simp [b2, hc']⟩
    | false => exact ⟨false, rfl, by simp [hc']⟩

theorem ofAll_accepts {s : PyStr} {ops : List Operator} (h : AllOf s ops) (v : Version) :
    ∃ b, (ofAll ops).accepts v = .ok b ∧ (b = true ↔ ∀ op ∈ ops, op.accepts v = .ok true) := by
  obtain ⟨a, l, -, h⟩ := h
  have hv : ∀ op ∈ ops, (Specifier.one op).Valid := fun op ho => by
    obtain ⟨w, -, hw⟩ := forall₂_right h ho
    exact (single_valid hw).1
  match ops, h, hv with
  | [o], _, hv =>
    obtain ⟨b, hb⟩ := accepts_total (hv o (by simp)) v
    refine ⟨b, hb, ?_⟩
    rw [accepts] at hb
    simp [hb]
  | o :: o' :: l, _, hv =>
    obtain ⟨b, b1, b2⟩ := allAccepts_ones hv v
    exact ⟨b, by rw [← b1, ofAll, accepts]; simp, b2⟩

theorem anyAccepts_groups {gs : List (List Operator)} {v : Version}
    (hv : ∀ g ∈ gs, ∃ b, (ofAll g).accepts v = .ok b ∧ (b = true ↔ ∀ op ∈ g, op.accepts v = .ok true)) :
    ∃ b, anyAccepts (gs.map ofAll) v = .ok b ∧ (b = true ↔ ∃ g ∈ gs, ∀ op ∈ g, op.accepts v = .ok true) := by
  induction gs with
  | nil => exact ⟨false, by rw [List.map_nil, anyAccepts], by simp⟩
  | cons a l ih =>
    obtain ⟨b, b1, b2⟩ := ih (fun g hg => hv g (by simp [hg]))
    obtain ⟨c, c1, c2⟩ := hv a (by simp)
    rw [List.map_cons, anyAccepts, c1]
    cases c with
    | true => exact ⟨true, rfl, fun _ => ⟨a, by simp, c2.1 rfl⟩, fun _ => rfl⟩
    | false =>
      have : ¬ ∀ op ∈ a, op.accepts v = .ok true := fun h => by have := c2.2 h; cases this
      refine ⟨b, b1, b2.trans ⟨fun ⟨g, hg, h⟩ => ⟨g, by simp [hg], h⟩, fun ⟨g, hg, h⟩ => ?_⟩⟩
      rcases List.mem_cons.1 hg with rfl | hg
      · exact absurd h this
      · exact ⟨g, hg, h⟩

theorem ofAny_accepts {s : PyStr} {gs : List (List Operator)} (h : AnyOf s gs) (v : Version) :
    ∃ b, (ofAny gs).accepts v = .ok b ∧ (b = true ↔ ∃ g ∈ gs, ∀ op ∈ g, op.accepts v = .ok true) := by
  obtain ⟨a, l, -, h⟩ := h
  have hv : ∀ g ∈ gs, ∃ b, (ofAll g).accepts v = .ok b ∧ (b = true ↔ ∀ op ∈ g, op.accepts v = .ok true) := fun g hg => by
    obtain ⟨w, -, hw⟩ := forall₂_right h hg
    exact ofAll_accepts hw v
  match gs, h, hv with
  | [g], _, hv =>
    obtain ⟨b, b1, b2⟩ := hv g (by simp)
    exact ⟨b, b1, by simp [b2]⟩
  | g :: g' :: l, _, hv =>
    obtain ⟨b, b1, b2⟩ := anyAccepts_groups hv
    exact ⟨b, by rw [← b1, ofAny, accepts]; simp, b2⟩

end Specifier
end Verif
