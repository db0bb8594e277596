import Verif.Props.SpecParsing
/-!
# Strings of version sets which are not read
-/

namespace Verif
open scoped Verif
open Re Specifier

/-- The string is one part, and reading it fails. -/
structure Fails (s : PyStr) : Prop where
  plain : Plain (clearWhitespace s)
  ne : clearWhitespace s ≠ []
  single : parseSingle (clearWhitespace s) = .error .parseSpecificationError

/-- The string has no pipes, and reading it fails. -/
structure FailsAll (s : PyStr) : Prop where
  pipe : ∀ c ∈ clearWhitespace s, c ≠ '|'
  ne : clearWhitespace s ≠ []
  all : parseAll (clearWhitespace s) = .error .parseSpecificationError

theorem mapAll_fails {α β : Type} {f : α → Except PyErr β} {e : PyErr} : ∀ {l : List α}, (∀ a ∈ l, (∃ b, f a = .ok b) ∨ f a = .error e) →
    (∃ a ∈ l, f a = .error e) → mapAll f l = .error e
  | [], _, h => by obtain ⟨a, ha, -⟩ := h; cases ha
  | a :: l, hl, h => by
    rw [mapAll]
    rcases hl a (by simp) with ⟨b, hb⟩ | hb
    · have : ∃ a ∈ l, f a = .error e := by
        obtain ⟨c, hc, hf⟩ := h
        rcases List.mem_cons.1 hc with rfl | hc
        · rw [hb] at hf; cases hf
        · exact ⟨c, hc, hf⟩
      rw [hb, mapAll_fails (fun c hc => hl c (by simp [hc])) this]
      rfl
    · rw [hb]
      rfl

theorem Fails.failsAll {s : PyStr} (h : Fails s) : FailsAll s := by
  refine ⟨h.plain.no_pipe, h.ne, ?_⟩
  unfold parseAll
  have : splitComma (clearWhitespace s) = [clearWhitespace s] := splitAt_single _ _ (h.plain.no (by decide))
  rw [this]
  simp only [mapAll, h.single]
  rfl

theorem fails_and {s t sep : PyStr} (h1 : (∃ x, Reads s x) ∨ Fails s) (h2 : (∃ x, Reads t x) ∨ Fails t) (h : Fails s ∨ Fails t)
    (hs : clearWhitespace sep = [',']) : FailsAll (join sep [s, t]) := by
  have e : clearWhitespace (join sep [s, t]) = clearWhitespace s ++ ',' :: clearWhitespace t := by
    rw [join_cons]
    simp only [List.map_cons, List.map_nil, List.flatten_cons, List.flatten_nil, List.append_nil]
    rw [clear_append, clear_append, hs]
    rfl
  have p1 : Plain (clearWhitespace s) := by rcases h1 with ⟨x, h1⟩ | h1 <;> exact h1.plain
  have p2 : Plain (clearWhitespace t) := by rcases h2 with ⟨x, h2⟩ | h2 <;> exact h2.plain
  refine ⟨?_, ?_, ?_⟩
  · rw [e]
    intro c hc
    rcases List.mem_append.1 hc with hc | hc
    · exact p1.no_pipe c hc
    · rcases List.mem_cons.1 hc with rfl | hc
      · decide
      · exact p2.no_pipe c hc
  · rw [e]
    simp
  · rw [e]
    unfold parseAll
    have : splitComma (clearWhitespace s ++ ',' :: clearWhitespace t) = [clearWhitespace s, clearWhitespace t] := by
      unfold splitComma
      rw [splitAt_append _ _ _ _ (p1.no (by decide)) (by decide), splitAt_single _ _ (p2.no (by decide))]
    rw [this, mapAll_fails (e := .parseSpecificationError)]
    · rfl
    · intro a ha
      simp only [List.mem_cons, List.not_mem_nil, or_false] at ha
      rcases ha with rfl | rfl
      · exact h1.imp (fun ⟨x, h⟩ => ⟨x, h.single⟩) (fun h => h.single)
      · exact h2.imp (fun ⟨x, h⟩ => ⟨x, h.single⟩) (fun h => h.single)
    · rcases h with h | h
      · exact ⟨_, by simp, h.single⟩
      · exact ⟨_, by simp, h.single⟩

theorem FailsAll.parse {s : PyStr} (h : FailsAll s) : Specifier.parse s = .error .parseSpecificationError := by
  unfold Specifier.parse parseAny
  have : splitPipes (clearWhitespace s) = [clearWhitespace s] := splitPipes_pipes [] _ h.pipe (by simp) (by simp)
  rw [this]
  simp only [mapAll, h.all]
  rfl

theorem clear_join {sep : PyStr} (hs : clearWhitespace sep = ['|', '|']) : ∀ (l : List PyStr) (a : PyStr),
    clearWhitespace (join sep (a :: l)) = pipes (clearWhitespace a) (l.map (fun s => (true, clearWhitespace s))) := by
  intro l
  induction l with
  | nil => intro a; simp [join, pipes]
  | cons b l ih =>
    intro a
    have : join sep (a :: b :: l) = a ++ (sep ++ join sep (b :: l)) := by
      unfold join
      rw [List.intercalate_cons_cons, List.append_assoc]
    rw [this, clear_append, clear_append, hs, ih, List.map_cons, pipes]
    simp

theorem fails_join {sep : PyStr} (hs : clearWhitespace sep = ['|', '|']) {l : List PyStr} (hl : ∀ s ∈ l, (∃ x, ReadsAll s x) ∨ FailsAll s)
    (h : ∃ s ∈ l, FailsAll s) : Specifier.parse (join sep l) = .error .parseSpecificationError := by
  have hpipe : ∀ s ∈ l, (∀ c ∈ clearWhitespace s, c ≠ '|') ∧ clearWhitespace s ≠ [] := by
    intro s hs
    rcases hl s hs with ⟨x, hx⟩ | hx
    · exact ⟨hx.pipe, hx.ne⟩
    · exact ⟨hx.pipe, hx.ne⟩
  cases l with
  | nil => obtain ⟨s, hs, -⟩ := h; cases hs
  | cons a l =>
    unfold Specifier.parse parseAny
    rw [clear_join hs, splitPipes_pipes _ _ (hpipe a (by simp)).1]
    · rw [List.map_map]
      have : clearWhitespace a :: l.map ((fun x => x.2) ∘ fun s => (true, clearWhitespace s)) = (a :: l).map clearWhitespace := rfl
      rw [this, mapAll_fails (e := .parseSpecificationError)]
      · rfl
      · intro b hb
        obtain ⟨s, hs, rfl⟩ := List.mem_map.1 hb
        exact (hl s hs).imp (fun ⟨x, h⟩ => ⟨x, h.all⟩) (fun h => h.all)
      · obtain ⟨s, hs, hf⟩ := h
        exact ⟨_, List.mem_map_of_mem hs, hf.all⟩
    · intro z hz
      obtain ⟨s, hs, rfl⟩ := List.mem_map.1 hz
      exact (hpipe s (by simp [hs])).1
    · intro z hz
      obtain ⟨s, hs, rfl⟩ := List.mem_map.1 (List.dropLast_subset _ hz)
      exact (hpipe s (by simp [hs])).2

/-- Versions which are not read back in order operators (`P`), alone and after `!=` (`Q`). -/
structure Printer.Bad (p : Printer) : Prop where
  ver : ∀ v, v.Canonical → ¬ p.Q v → Fails (p.ver v)
  ne : ∀ v, v.Canonical → ¬ p.Q v → Fails (p.op ⟨.notEqual, v⟩)
  op : ∀ v, v.Canonical → ¬ p.P v → ∀ t, (t = .less ∨ t = .lessOrEqual ∨ t = .greater ∨ t = .greaterOrEqual) → Fails (p.op ⟨t, v⟩)

theorem fails_item {p : Printer} (hp : p.Good) (hb : p.Bad) {i : Item} (hc : i.Ends Version.Canonical) (hi : ¬ p.Ok i) : FailsAll (p.item i) := by
  cases i with
  | point v => exact (hb.ver v (hc.1 v rfl) hi).failsAll
  | range r =>
    obtain ⟨mn, mx, x, y⟩ := r
    have hlo : ∀ a x, mn = some a → (p.P a → ∃ s, Reads (p.op ⟨if x = true then .greaterOrEqual else .greater, a⟩) s) ∧
        (¬ p.P a → Fails (p.op ⟨if x = true then .greaterOrEqual else .greater, a⟩)) :=
      fun a x ha => ⟨fun h => ⟨_, hp.op a h _ (by cases x <;> simp)⟩, fun h => hb.op a (hc.1 a ha) h _ (by cases x <;> simp)⟩
    have hhi : ∀ a x, mx = some a → (p.P a → ∃ s, Reads (p.op ⟨if x = true then .lessOrEqual else .less, a⟩) s) ∧
        (¬ p.P a → Fails (p.op ⟨if x = true then .lessOrEqual else .less, a⟩)) :=
      fun a x ha => ⟨fun h => ⟨_, hp.op a h _ (by cases x <;> simp)⟩, fun h => hb.op a (hc.2 a ha) h _ (by cases x <;> simp)⟩
    cases mn with
    | none => cases mx with
      | none => exact absurd ⟨by rintro _ ⟨⟩, by rintro _ ⟨⟩⟩ hi
      | some b =>
        refine ((hhi b y rfl).2 fun h => hi ⟨by rintro _ ⟨⟩, by rintro _ ⟨⟩; exact h⟩).failsAll
    | some a => cases mx with
      | none => exact ((hlo a x rfl).2 fun h => hi ⟨by rintro _ ⟨⟩; exact h, by rintro _ ⟨⟩⟩).failsAll
      | some b =>
        have h1 := hlo a x rfl
        have h2 := hhi b y rfl
        by_cases ha : p.P a
        · have hb' : ¬ p.P b := fun h => hi ⟨by rintro _ ⟨⟩; exact ha, by rintro _ ⟨⟩; exact h⟩
          exact fails_and (.inl (h1.1 ha)) (.inr (h2.2 hb')) (.inr (h2.2 hb')) hp.comma
        · refine fails_and (.inr (h1.2 ha)) ?_ (.inl (h1.2 ha)) hp.comma
          by_cases h : p.P b
          · exact .inl (h2.1 h)
          · exact .inr (h2.2 h)

/-! ### the printers of the code -/

theorem fails_op {s w : PyStr} {t : OpType} (hs : clearWhitespace s = clearWhitespace (t.string ++ w)) (hw : Plain w) (hne : w ≠ [])
    (h : parseSingle (t.string ++ w) = .error .parseSpecificationError) : Fails s := by
  have hp := Plain.append (op_plain (op_words t).2.2.2) hw
  rw [hp.clear] at hs
  refine ⟨hs ▸ hp, ?_, hs ▸ h⟩
  rw [hs]
  simp [hne]

theorem spelling_ne {p : Spelling} (hp : p.WF) : p.text ≠ [] := by
  have := hp.major.1
  simp [Spelling.text, Spelling.releaseText, this]

theorem fails_local {s : PyStr} {t : OpType} {p : Spelling} (hs : clearWhitespace s = clearWhitespace (t.string ++ opText t p.text))
    (ht : t = .less ∨ t = .lessOrEqual ∨ t = .greater ∨ t = .greaterOrEqual) (hp : p.WF) (hl : p.local_ ≠ none) : Fails s := by
  have e : opText t p.text = p.text := by
    unfold opText
    rw [if_neg]
    rcases ht with rfl | rfl | rfl | rfl <;> decide
  rw [e] at hs
  have hc : (t.string, t) ∈ compareWords := by rcases ht with rfl | rfl | rfl | rfl <;> decide
  exact fails_op hs (fun c hc => text_specials hp hc) (spelling_ne hp) (single_local hc hp hl)

theorem shortPrinter_bad : shortPrinter.Bad where
  ver v hv h := absurd hv h
  ne v hv h := absurd hv h
  op v hv h t ht := by
    have hl : v.local_ ≠ none := fun e => h ⟨hv, e⟩
    refine fails_local (t := t) (p := shortSpelling v) ?_ ht (good_shortSpelling hv).1 ?_
    · rw [← text_short hv.valid]; exact clear_opShortStr _
    · simp only [shortSpelling, canonicalSpelling]
      cases h : v.local_ with
      | none => exact absurd h hl
      | some l => simp

/-- The string of a canonical version, candidate or not. -/
theorem long_plain {v : Version} (hv : v.Canonical) : Plain v.toStr ∧ v.toStr ≠ [] := by
  by_cases hn : NoCandidate v
  · have h := (good_longSpelling hv hn).1
    rw [text_long hv.valid]
    exact ⟨fun c hc => text_specials h hc, spelling_ne h⟩
  · simp only [NoCandidate, not_forall, not_not] at hn
    obtain ⟨g, hg, hc⟩ := hn
    have h0 := (good_longSpelling (v := { v with pre := none }) ⟨⟨hv.valid.release, (by intro t ht; cases ht), hv.valid.post, hv.valid.dev, hv.valid.local_⟩,
      hv.epoch, hv.release, (by intro t ht; cases ht), hv.post, hv.dev, hv.local_⟩ (by intro t ht; cases ht)).1
    have h1 : Plain (longTag g).text := by
      have e : (longTag g).text = "-candidate.".toList ++ intStr g.value := by
        unfold longTag TagSpelling.text TagSpelling.body TagSpelling.valueText
        rw [hc]
        rfl
      rw [e]
      apply Plain.append
      · unfold Plain; decide
      · intro c hc hs
        have hd := (intStr_digits (hv.pre g hg)).2 c hc
        have : ∀ c ∈ specials, ¬ IsDigit c := by decide
        exact this c hs hd
    have e : (longSpelling v).pre = some (longTag g) := by simp [longSpelling, canonicalSpelling, hg]
    refine ⟨fun c hc => ?_, fun h => ?_⟩
    · rw [text_long hv.valid] at hc
      simp only [Spelling.text, e, Spelling.optText, List.mem_append] at hc
      by_cases hm : c ∈ (longTag g).text
      · exact h1 c hm
      · refine text_specials h0 (c := c) ?_
        simp only [Spelling.text, List.mem_append]
        simp only [longSpelling, canonicalSpelling, Spelling.optText] at hc ⊢
        tauto
    · have := candidate_n hv hg hc
      rw [h] at this
      simp at this

theorem fails_candidate {s : PyStr} {t : OpType} {v : Version} (hv : v.Canonical) (hn : ¬ NoCandidate v)
    (hs : clearWhitespace s = clearWhitespace (t.string ++ v.toStr)) : Fails s := by
  obtain ⟨hp, hne⟩ := long_plain hv
  simp only [NoCandidate, not_forall, not_not] at hn
  obtain ⟨g, hg, hc⟩ := hn
  exact fails_op hs hp hne (single_hasN ((hasN_op (op_words t).2.2.2).2 (candidate_n hv hg hc)))

theorem longPrinter_bad : longPrinter.Bad where
  ver v hv h := by
    have hn : ¬ NoCandidate v := fun e => h ⟨hv, e⟩
    obtain ⟨hp, hne⟩ := long_plain hv
    simp only [NoCandidate, not_forall, not_not] at hn
    obtain ⟨g, hg, hc⟩ := hn
    refine ⟨hp.clear.symm ▸ hp, hp.clear.symm ▸ hne, ?_⟩
    show parseSingle (clearWhitespace v.toStr) = _
    rw [hp.clear]
    exact single_hasN (candidate_n hv hg hc)
  ne v hv h := fails_candidate (t := .notEqual) hv (fun e => h ⟨hv, e⟩) (clear_opStr ⟨.notEqual, v⟩)
  op v hv h t ht := by
    have hop : opText t v.toStr = v.toStr := by
      unfold opText
      rw [if_neg]
      rcases ht with rfl | rfl | rfl | rfl <;> decide
    by_cases hn : NoCandidate v
    · have hl : v.local_ ≠ none := fun e => h ⟨hv, hn, e⟩
      refine fails_local (t := t) (p := longSpelling v) ?_ ht (good_longSpelling hv hn).1 ?_
      · rw [← text_long hv.valid]; exact clear_opStr _
      · simp only [longSpelling, canonicalSpelling]
        cases h : v.local_ with
        | none => exact absurd h hl
        | some l => simp
    · refine fails_candidate (t := t) hv hn ?_
      have := clear_opStr ⟨t, v⟩
      simp only [hop] at this
      exact this

/-! ### sets -/

/-- The text of a set in normal form which is not empty. -/
def Printer.Text (p : Printer) (x : VSet) (s : PyStr) : Prop :=
  (∃ i, x = .item i ∧ s = p.item i) ∨
    ∃ items, x = .union items ∧ ((∃ v, (∀ lim, VSet.excludeVersion lim items = .ok (some v)) ∧ s = p.op ⟨.notEqual, v⟩) ∨
      ((∀ lim, VSet.excludeVersion lim items = .ok none) ∧ s = join p.pipe (items.map p.item)))

theorem set_text (p : Printer) {x : VSet} (hx : x.Normal) (hne : x ≠ .empty) : ∃ s, p.Text x s := by
  cases x with
  | empty => exact absurd rfl hne
  | item i => exact ⟨_, .inl ⟨i, rfl, rfl⟩⟩
  | union items =>
    obtain ⟨z, z1, z2, z3⟩ := complement_spec hx
    by_cases hz : ∃ v, z = .item (.point v)
    · obtain ⟨v, rfl⟩ := hz
      refine ⟨_, .inr ⟨items, rfl, .inl ⟨v, fun lim => ?_, rfl⟩⟩⟩
      simp [VSet.excludeVersion, z1, bind, Except.bind]
    · refine ⟨_, .inr ⟨items, rfl, .inr ⟨fun lim => ?_, rfl⟩⟩⟩
      simp only [VSet.excludeVersion, z1, bind, Except.bind]
      cases z with
      | empty => rfl
      | union _ => rfl
      | item i => cases i with
        | range _ => rfl
        | point v => exact absurd ⟨v, rfl⟩ hz

theorem exclude_ends {P : Version → Prop} {items : List Item} {v : Version} (h : VSet.excludeVersion 0 items = .ok (some v))
    (he : AllEnds P items) : P v := by
  simp only [VSet.excludeVersion, bind, Except.bind] at h
  cases hz : (VSet.union items).complement 0 with
  | error e => rw [hz] at h; cases h
  | ok z =>
    rw [hz] at h
    have := complement_ends (a := .union items) he hz
    cases z with
    | empty => cases h
    | union _ => cases h
    | item i => cases i with
      | range _ => cases h
      | point w =>
        cases h
        exact (this (.point v) (by simp [VSet.extract])).1 v rfl

/-- The text of a set which is not read. -/
theorem text_fails {p : Printer} (hp : p.Good) (hb : p.Bad) {x : VSet} {s : PyStr} (hs : p.Text x s)
    (hc : AllEnds Version.Canonical x.extract)
    (h : ((∃ items v, x = .union items ∧ VSet.excludeVersion 0 items = .ok (some v) ∧ ¬ p.Q v)) ∨
      ((∀ items, x = .union items → VSet.excludeVersion 0 items = .ok none) ∧ ∃ i, x.Has i ∧ ¬ p.Ok i)) :
    Specifier.parse s = .error .parseSpecificationError := by
  rcases hs with ⟨i, rfl, rfl⟩ | ⟨items, rfl, ⟨v, hv, rfl⟩ | ⟨hv, rfl⟩⟩
  · rcases h with ⟨_, _, h, -⟩ | ⟨-, j, hj, h⟩
    · cases h
    · have : j = i := by simpa [VSet.extract] using (has_iff _ _).1 hj
      subst this
      exact (fails_item hp hb (hc j (by simp [VSet.extract])) h).parse
  · rcases h with ⟨_, w, e, hw, h⟩ | ⟨h, -⟩
    · cases e
      rw [hv 0] at hw
      cases hw
      exact (hb.ne v (exclude_ends (hv 0) hc) h).failsAll.parse
    · have := h items rfl
      rw [hv 0] at this
      cases this
  · rcases h with ⟨_, w, e, hw, h⟩ | ⟨-, j, hj, h⟩
    · cases e
      rw [hv 0] at hw
      cases hw
    · apply fails_join hp.pipe
      · intro t ht
        obtain ⟨i, hi, rfl⟩ := List.mem_map.1 ht
        by_cases hi' : p.Ok i
        · exact .inl ⟨_, readsAll_item hp hi'⟩
        · exact .inr (fails_item hp hb (hc i hi) hi')
      · exact ⟨_, List.mem_map_of_mem ((has_iff _ _).1 hj), fails_item hp hb (hc j ((has_iff _ _).1 hj)) h⟩

/-- The text of a set which is read. -/
theorem text_reads {p : Printer} (hp : p.Good) {x : VSet} (hx : x.Normal) {s : PyStr} (hs : p.Text x s)
    (h : ((∃ items v, x = .union items ∧ VSet.excludeVersion 0 items = .ok (some v) ∧ p.Q v)) ∨
      ((∀ items, x = .union items → VSet.excludeVersion 0 items = .ok none) ∧ ∀ i, x.Has i → p.Ok i)) :
    ∃ t y, Specifier.parse s = .ok t ∧ (∀ lim, toSet (lim + 2) t = .ok y) ∧ y.Normal ∧ y.eq x = true := by
  obtain ⟨t, f1, -, y, y1, y2, y3⟩ := fromSet_spec hx
  have hyx := (eq_iff_cov y2 hx).2 y3
  rcases hs with ⟨i, rfl, rfl⟩ | ⟨items, rfl, ⟨v, hv, rfl⟩ | ⟨hv, rfl⟩⟩
  · rcases h with ⟨_, _, h, -⟩ | ⟨-, h⟩
    · cases h
    · have ht : t = ofItem i := Except.ok.inj ((f1 0).symm.trans (fromItem_eq hx))
      refine ⟨_, y, (readsAll_item hp (h i ((has_iff _ _).2 (by simp [VSet.extract])))).parse, fun lim => ?_, y2, hyx⟩
      rw [readItem_toSet, ← ht, y1]
  · rcases h with ⟨_, w, e, hw, h⟩ | ⟨h, -⟩
    · cases e
      rw [hv 0] at hw
      cases hw
      have ht : t = .one ⟨.notEqual, v⟩ := by
        have := f1 0
        simp only [fromSet, tryExcludeVersion, hv, bind, Except.bind, unpinVersion, Operator.create] at this
        simpa using this.symm
      exact ⟨_, y, (hp.ne v h).parse, fun lim => by rw [← ht, y1], y2, hyx⟩
    · have := h items rfl
      rw [hv 0] at this
      cases this
  · rcases h with ⟨_, w, e, hw, h⟩ | ⟨-, h⟩
    · cases e
      rw [hv 0] at hw
      cases hw
    · have hn : AllNormal items := hx.2.1
      have hl := hx.1
      have hall : ∀ l : List Item, (∀ i ∈ l, p.Ok i) → List.Forall₂ ReadsAll (l.map p.item) (l.map readItem) := by
        intro l h
        induction l with
        | nil => exact .nil
        | cons i l ih => exact .cons (readsAll_item hp (h i (by simp))) (ih (fun j hj => h j (by simp [hj])))
      have hok' : ∀ i ∈ items, p.Ok i := fun i hi => h i ((has_iff _ _).2 hi)
      match items, hl, hn, hv, hok', f1 with
      | i :: j :: items, _, hn, hv, hok', f1 =>
        have ht : t = .any ((i :: j :: items).map ofItem) := by
          have := f1 0
          simp only [fromSet, tryExcludeVersion, hv, mapM_fromItem hn, bind, Except.bind, anyOf, List.map_cons, mkAny, checkSpecifiers] at this
          simpa using this.symm
        have h3 := hall items (fun k hk => hok' k (by simp [hk]))
        refine ⟨_, y, parse_join hp.pipe (readsAll_item hp (hok' i (by simp))) (readsAll_item hp (hok' j (by simp))) h3, fun lim => ?_, y2, hyx⟩
        have h := y1 lim
        rw [ht] at h
        simp only [List.map_cons, toSet] at h ⊢
        have hr := reduceAny_congr (l := j :: items)
        simp only [List.map_cons] at hr
        rw [readItem_toSet, ← h]
        simp only [hr]

theorem set_short_text {x : VSet} (hx : x.Normal) {s : PyStr} (hs : shortPrinter.Text x s) (lim : Nat) : x.toShortStr lim = .ok s := by
  rcases hs with ⟨i, rfl, rfl⟩ | ⟨items, rfl, ⟨v, hv, rfl⟩ | ⟨hv, rfl⟩⟩
  · exact short_item hx
  · simp only [VSet.toShortStr, hv, bind, Except.bind]
    rfl
  · simp only [VSet.toShortStr, hv, bind, Except.bind]
    rw [mapM_items (g := shortPrinter.item) (fun i hi => short_item (hx.2.1 i hi))]
    rfl

theorem set_long_text {x : VSet} (hx : x.Normal) {s : PyStr} (hs : longPrinter.Text x s) (lim : Nat) : x.toStr lim = .ok s := by
  rcases hs with ⟨i, rfl, rfl⟩ | ⟨items, rfl, ⟨v, hv, rfl⟩ | ⟨hv, rfl⟩⟩
  · exact long_item hx
  · simp only [VSet.toStr, hv, bind, Except.bind]
    rfl
  · simp only [VSet.toStr, hv, bind, Except.bind]
    rw [mapM_items (g := longPrinter.item) (fun i hi => long_item (hx.2.1 i hi))]
    rfl

end Verif
