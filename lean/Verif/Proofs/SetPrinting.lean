import Verif.Proofs.OpPrinting
import Verif.Proofs.Specifiers
import Verif.Proofs.SetLevel2
/-!
# Strings of specifiers and version sets
-/

namespace Verif

open Re Specifier

/-! ### reading parts of strings -/

/-- The string is read as a single specifier. -/
structure Reads (s : PyStr) (x : Specifier) : Prop where
  plain : Plain (clearWhitespace s)
  ne : clearWhitespace s ≠ []
  single : parseSingle (clearWhitespace s) = .ok x

/-- The string, without pipes, is read as a conjunction. -/
structure ReadsAll (s : PyStr) (x : Specifier) : Prop where
  pipe : ∀ c ∈ clearWhitespace s, c ≠ '|'
  ne : clearWhitespace s ≠ []
  all : parseAll (clearWhitespace s) = .ok x

theorem clear_clear (s : PyStr) : clearWhitespace (clearWhitespace s) = clearWhitespace s := by
  rw [clearWhitespace_eq, clearWhitespace_eq, List.filter_filter]
  simp

theorem Plain.no_pipe {s : PyStr} (h : Plain s) : ∀ c ∈ s, c ≠ '|' := fun c hc e => h c hc (e ▸ by decide)

theorem Reads.readsAll {s : PyStr} {x : Specifier} (h : Reads s x) : ReadsAll s x := by
  refine ⟨h.plain.no_pipe, h.ne, ?_⟩
  unfold parseAll
  have : splitComma (clearWhitespace s) = [clearWhitespace s] := splitAt_single _ _ (h.plain.no (by decide))
  rw [this]
  simp only [mapAll, h.single]
  rfl

theorem Reads.and {s t sep : PyStr} {x y : Specifier} (h1 : Reads s x) (h2 : Reads t y) (hs : clearWhitespace sep = [',']) :
    ReadsAll (join sep [s, t]) (.all [x, y]) := by
  have e : clearWhitespace (join sep [s, t]) = clearWhitespace s ++ ',' :: clearWhitespace t := by
    rw [join_cons]
    simp only [List.map_cons, List.map_nil, List.flatten_cons, List.flatten_nil, List.append_nil]
    rw [clear_append, clear_append, hs]
    rfl
  refine ⟨?_, ?_, ?_⟩
  · rw [e]
    intro c hc
    rcases List.mem_append.1 hc with hc | hc
    · exact h1.plain.no_pipe c hc
    · rcases List.mem_cons.1 hc with rfl | hc
      · decide
      · exact h2.plain.no_pipe c hc
  · rw [e]
    simp
  · rw [e]
    unfold parseAll
    have : splitComma (clearWhitespace s ++ ',' :: clearWhitespace t) = [clearWhitespace s, clearWhitespace t] := by
      unfold splitComma
      rw [splitAt_append _ _ _ _ (h1.plain.no (by decide)) (by decide), splitAt_single _ _ (h2.plain.no (by decide))]
    rw [this]
    simp only [mapAll, h1.single, h2.single]
    rfl

theorem ReadsAll.parse {s : PyStr} {x : Specifier} (h : ReadsAll s x) : Specifier.parse s = .ok x := by
  unfold Specifier.parse parseAny
  have : splitPipes (clearWhitespace s) = [clearWhitespace s] := splitPipes_pipes [] _ h.pipe (by simp) (by simp)
  rw [this]
  simp only [mapAll, h.all]
  rfl

theorem Reads.parse {s : PyStr} {x : Specifier} (h : Reads s x) : Specifier.parse s = .ok x := h.readsAll.parse

/-- Two or more strings joined by pipes. -/
theorem parse_join {sep : PyStr} (hs : clearWhitespace sep = ['|', '|']) {a b : PyStr} {l : List PyStr} {x y : Specifier} {xs : List Specifier}
    (h1 : ReadsAll a x) (h2 : ReadsAll b y) (h3 : List.Forall₂ ReadsAll l xs) : Specifier.parse (join sep (a :: b :: l)) = .ok (.any (x :: y :: xs)) := by
  have e : ∀ (l : List PyStr) (a : PyStr), clearWhitespace (join sep (a :: l)) = pipes (clearWhitespace a) (l.map (fun s => (true, clearWhitespace s))) := by
    intro l
    induction l with
    | nil => intro a; simp [join, pipes]
    | cons b l ih =>
      intro a
      have : join sep (a :: b :: l) = a ++ (sep ++ join sep (b :: l)) := by
        unfold join
        rw [List.intercalate_cons_cons, List.append_assoc]
      rw [this, clear_append, clear_append, hs, ih, List.map_cons, pipes]
      simp
  have hall : List.Forall₂ ReadsAll (b :: l) (y :: xs) := .cons h2 h3
  have hmem : ∀ s ∈ b :: l, ∃ z, ReadsAll s z := by
    intro s hs
    obtain ⟨n, hn, rfl⟩ := List.mem_iff_getElem.1 hs
    have hn' : n < (y :: xs).length := hall.length_eq ▸ hn
    exact ⟨(y :: xs)[n], (List.forall₂_iff_get.1 hall).2 n hn hn'⟩
  unfold Specifier.parse parseAny
  rw [e, splitPipes_pipes _ _ h1.pipe]
  · rw [List.map_map]
    have hm : ∀ (l : List PyStr) (xs : List Specifier), List.Forall₂ ReadsAll l xs →
        mapAll parseAll (l.map ((fun x => x.2) ∘ fun s => (true, clearWhitespace s))) = .ok xs := by
      intro l xs h
      induction h with
      | nil => rfl
      | cons h _ ih =>
        simp only [List.map_cons, mapAll, Function.comp] at ih ⊢
        rw [h.all, ih]
        rfl
    have := hm _ _ hall
    simp only [mapAll, h1.all, this, bind, Except.bind]
    rfl
  · intro z hz
    obtain ⟨s, hs, rfl⟩ := List.mem_map.1 hz
    obtain ⟨x, hx⟩ := hmem s hs
    exact hx.pipe
  · intro z hz
    obtain ⟨s, hs, rfl⟩ := List.mem_map.1 (List.dropLast_subset _ hz)
    obtain ⟨x, hx⟩ := hmem s hs
    exact hx.ne

/-! ### operators -/

theorem reads_simple {s : PyStr} {t : OpType} {p : Spelling} {v : Version} (hs : clearWhitespace s = clearWhitespace (t.string ++ opText t p.text))
    (ht : t.isWildcard = false) (hp : p.WF) (hl : p.local_ = none ∨ t = .equal ∨ t = .doubleEqual ∨ t = .notEqual)
    (hv : Version.parse p.text = .ok v) (hc : Operator.create t v = .ok ⟨t, v⟩) : Reads s (.one ⟨t, v⟩) := by
  have h4 := (op_words t).2.2.2
  have e : opText t p.text = p.text := by unfold opText; rw [if_neg (by simp [ht])]
  have hpl : Plain (t.string ++ opText t p.text) := by
    rw [e]
    exact Plain.append (op_plain h4) (fun c hc => text_specials hp hc)
  rw [hpl.clear] at hs
  refine ⟨hs ▸ hpl, ?_, ?_⟩
  · rw [hs, e]
    have := hp.major.1
    simp [Spelling.text, Spelling.releaseText, this]
  · have := parse_simple ht hp hl
    rw [parse_plain hpl] at this
    rw [hs, this]
    exact makeOne_ok hv hc

/-- A version alone. -/
theorem reads_version {p : Spelling} {v : Version} (hp : p.WF) (hv : Version.parse p.text = .ok v) : Reads p.text (.one ⟨.equal, v⟩) := by
  have hpl : Plain p.text := fun c hc => text_specials hp hc
  refine ⟨hpl.clear.symm ▸ hpl, ?_, ?_⟩
  · rw [hpl.clear]
    have := hp.major.1
    simp [Spelling.text, Spelling.releaseText, this]
  · rw [hpl.clear]
    have := single_equal (o := []) (t := .equal) (by decide) hp
    rw [List.nil_append] at this
    rw [this]
    exact makeOne_ok hv rfl

theorem clear_opStr (o : Operator) : clearWhitespace o.toStr = clearWhitespace (o.type.string ++ opText o.type o.version.toStr) := by
  unfold Operator.toStr opText
  dsimp only
  cases o.type.isUnary with
  | true => rw [if_pos rfl, join_none]
  | false => rw [if_neg (by decide), join_space]

theorem clear_opShortStr (o : Operator) : clearWhitespace o.toShortStr = clearWhitespace (o.type.string ++ opText o.type o.version.toShortStr) := by
  unfold Operator.toShortStr opText
  dsimp only
  rw [join_none]

theorem reads_short {t : OpType} {v : Version} (hv : v.Canonical) (ht : t.isWildcard = false)
    (hl : v.local_ = none ∨ t = .equal ∨ t = .doubleEqual ∨ t = .notEqual) (hc : Operator.create t v = .ok ⟨t, v⟩) :
    Reads (Operator.toShortStr ⟨t, v⟩) (.one ⟨t, v⟩) := by
  obtain ⟨h1, -, -⟩ := good_shortSpelling hv
  have e := text_short hv.valid
  refine reads_simple (p := shortSpelling v) ?_ ht h1 (hl.imp ?_ id) (e ▸ parse_short hv) hc
  · rw [clear_opShortStr, ← e]
  · intro h
    simp [shortSpelling, canonicalSpelling, h]

theorem reads_long {t : OpType} {v : Version} (hv : v.Canonical) (hn : NoCandidate v) (ht : t.isWildcard = false)
    (hl : v.local_ = none ∨ t = .equal ∨ t = .doubleEqual ∨ t = .notEqual) (hc : Operator.create t v = .ok ⟨t, v⟩) :
    Reads (Operator.toStr ⟨t, v⟩) (.one ⟨t, v⟩) := by
  obtain ⟨h1, -, -⟩ := good_longSpelling hv hn
  have e := text_long hv.valid
  refine reads_simple (p := longSpelling v) ?_ ht h1 (hl.imp ?_ id) (e ▸ parse_long hv hn) hc
  · rw [clear_opStr, ← e]
  · intro h
    simp [longSpelling, canonicalSpelling, h]

/-! ### version sets -/

/-- How sets are printed and which versions are read back: `P` in any operator, `Q` alone and after `!=`. -/
structure Printer where
  ver : Version → PyStr
  op : Operator → PyStr
  comma : PyStr
  pipe : PyStr
  P : Version → Prop
  Q : Version → Prop

structure Printer.Good (p : Printer) : Prop where
  comma : clearWhitespace p.comma = [',']
  pipe : clearWhitespace p.pipe = ['|', '|']
  ver : ∀ v, p.Q v → Reads (p.ver v) (.one ⟨.equal, v⟩)
  ne : ∀ v, p.Q v → Reads (p.op ⟨.notEqual, v⟩) (.one ⟨.notEqual, v⟩)
  op : ∀ v, p.P v → ∀ t, (t = .less ∨ t = .lessOrEqual ∨ t = .greater ∨ t = .greaterOrEqual) → Reads (p.op ⟨t, v⟩) (.one ⟨t, v⟩)

namespace Printer

/-- The text of an item. -/
def item (p : Printer) : Item → PyStr
  | .point v => p.ver v
  | .range ⟨none, none, _, _⟩ => "*".toList
  | .range ⟨some a, none, i, _⟩ => p.op ⟨if i then .greaterOrEqual else .greater, a⟩
  | .range ⟨none, some b, _, j⟩ => p.op ⟨if j then .lessOrEqual else .less, b⟩
  | .range ⟨some a, some b, i, j⟩ =>
    join p.comma [p.op ⟨if i then .greaterOrEqual else .greater, a⟩, p.op ⟨if j then .lessOrEqual else .less, b⟩]

/-- The ends can be read back. -/
def Ok (p : Printer) : Item → Prop
  | .point v => p.Q v
  | .range r => (∀ v, r.min = some v → p.P v) ∧ ∀ v, r.max = some v → p.P v

end Printer

/-- The specifier that the text of an item is read as. -/
def readItem : Item → Specifier
  | .point v => .one ⟨.equal, v⟩
  | .range ⟨none, none, _, _⟩ => .one ⟨.wildcardEqual, { release := ⟨[0]⟩ }⟩
  | i => ofItem i

theorem readItem_toSet (lim : Nat) (i : Item) : toSet lim (readItem i) = toSet lim (ofItem i) := by
  cases i with
  | point v => simp only [readItem, ofItem, toSet]; rfl
  | range r =>
    obtain ⟨mn, mx, x, y⟩ := r
    cases mn with
    | none => cases mx with
      | none => simp only [readItem, ofItem, toSet]; rfl
      | some b => rfl
    | some a => cases mx <;> rfl

theorem reads_star : Reads "*".toList (.one ⟨.wildcardEqual, { release := ⟨[0]⟩ }⟩) :=
  ⟨by unfold Plain; decide +kernel, by decide, by rfl⟩

theorem readsAll_item {p : Printer} (hp : p.Good) {i : Item} (hi : p.Ok i) : ReadsAll (p.item i) (readItem i) := by
  cases i with
  | point v => exact (hp.ver v hi).readsAll
  | range r =>
    obtain ⟨mn, mx, x, y⟩ := r
    have hlo : ∀ a x, mn = some a → Reads (p.op ⟨if x = true then .greaterOrEqual else .greater, a⟩) (.one ⟨if x = true then .greaterOrEqual else .greater, a⟩) :=
      fun a x ha => hp.op a (hi.1 a ha) _ (by cases x <;> simp)
    have hhi : ∀ a x, mx = some a → Reads (p.op ⟨if x = true then .lessOrEqual else .less, a⟩) (.one ⟨if x = true then .lessOrEqual else .less, a⟩) :=
      fun a x ha => hp.op a (hi.2 a ha) _ (by cases x <;> simp)
    cases mn with
    | none => cases mx with
      | none => exact reads_star.readsAll
      | some b => exact (hhi b y rfl).readsAll
    | some a => cases mx with
      | none => exact (hlo a x rfl).readsAll
      | some b => exact (hlo a x rfl).and (hhi b y rfl) hp.comma

theorem reduceAny_congr {l : List Item} : ∀ (lim : Nat) (acc : VSet), reduceAny lim acc (l.map readItem) = reduceAny lim acc (l.map ofItem) := by
  induction l with
  | nil => intro lim acc; rfl
  | cons i l ih =>
    intro lim acc
    simp only [List.map_cons, reduceAny, readItem_toSet, ih]

/-- The text of a set, and what it is read as. -/
theorem set_round_trip {p : Printer} (hp : p.Good) (hPQ : ∀ v, p.P v → p.Q v) {x : VSet} (hx : x.Normal) (hne : x ≠ .empty)
    (hok : ∀ i, x.Has i → p.Ok i) :
    ∃ s t y, ((∃ i, x = .item i ∧ s = p.item i) ∨
        (∃ items, x = .union items ∧ ((∃ v, (∀ lim, VSet.excludeVersion lim items = .ok (some v)) ∧ s = p.op ⟨.notEqual, v⟩) ∨
          ((∀ lim, VSet.excludeVersion lim items = .ok none) ∧ s = join p.pipe (items.map p.item))))) ∧
      Specifier.parse s = .ok t ∧ (∀ lim, toSet (lim + 2) t = .ok y) ∧ y.Normal ∧ y.eq x = true := by
  obtain ⟨t, f1, -, y, y1, y2, y3⟩ := fromSet_spec hx
  have hyx := (eq_iff_cov y2 hx).2 y3
  cases x with
  | empty => exact absurd rfl hne
  | item i =>
    have ht : t = ofItem i := Except.ok.inj ((f1 0).symm.trans (fromItem_eq hx))
    refine ⟨_, _, y, .inl ⟨i, rfl, rfl⟩, (readsAll_item hp (hok i ((has_iff _ _).2 (by simp [VSet.extract])))).parse, fun lim => ?_, y2, hyx⟩
    rw [readItem_toSet, ← ht, y1]
  | union items =>
    obtain ⟨z, z1, z2, z3⟩ := complement_spec hx
    by_cases hz : ∃ v, z = .item (.point v)
    · obtain ⟨v, rfl⟩ := hz
      have hex : ∀ lim, VSet.excludeVersion lim items = .ok (some v) := by
        intro lim
        simp [VSet.excludeVersion, z1, bind, Except.bind]
      have hends : AllEnds p.Q (VSet.union items).extract := by
        intro i hi
        have := hok i ((has_iff _ _).2 hi)
        cases i with
        | point w =>
          have : p.Q w := this
          constructor <;> intro u hu <;> simp [Item.min, Item.max, Item.fields] at hu <;> subst hu <;> exact this
        | range r =>
          obtain ⟨g1, g2⟩ := this
          exact ⟨fun u hu => hPQ u (g1 u hu), fun u hu => hPQ u (g2 u hu)⟩
      have hv : p.Q v := (complement_ends hends (z1 0) (.point v) (by simp [VSet.extract])).1 v rfl
      have ht : t = .one ⟨.notEqual, v⟩ := by
        have := f1 0
        simp only [fromSet, tryExcludeVersion, hex, bind, Except.bind, unpinVersion, Operator.create] at this
        simpa using this.symm
      refine ⟨_, _, y, .inr ⟨items, rfl, .inl ⟨v, hex, rfl⟩⟩, (hp.ne v hv).parse, fun lim => ?_, y2, hyx⟩
      rw [← ht, y1]
    · have hex : ∀ lim, VSet.excludeVersion lim items = .ok none := by
        intro lim
        simp only [VSet.excludeVersion, z1, bind, Except.bind]
        cases z with
        | empty => rfl
        | union _ => rfl
        | item i => cases i with
          | range _ => rfl
          | point v => exact absurd ⟨v, rfl⟩ hz
      have hn : AllNormal items := hx.2.1
      have hl := hx.1
      have hall : ∀ l : List Item, (∀ i ∈ l, p.Ok i) → List.Forall₂ ReadsAll (l.map p.item) (l.map readItem) := by
        intro l h
        induction l with
        | nil => exact .nil
        | cons i l ih => exact .cons (readsAll_item hp (h i (by simp))) (ih (fun j hj => h j (by simp [hj])))
      have hok' : ∀ i ∈ items, p.Ok i := fun i hi => hok i ((has_iff _ _).2 hi)
      match items, hl, hn, hex, hok', f1 with
      | i :: j :: items, _, hn, hex, hok', f1 =>
        have ht : t = .any ((i :: j :: items).map ofItem) := by
          have := f1 0
          simp only [fromSet, tryExcludeVersion, hex, mapM_fromItem hn, bind, Except.bind, anyOf, List.map_cons, mkAny, checkSpecifiers] at this
          simpa using this.symm
        have h3 := hall items (fun k hk => hok' k (by simp [hk]))
        refine ⟨_, _, y, .inr ⟨_, rfl, .inr ⟨hex, rfl⟩⟩,
          parse_join hp.pipe (readsAll_item hp (hok' i (by simp))) (readsAll_item hp (hok' j (by simp))) h3, fun lim => ?_, y2, hyx⟩
        have h := y1 lim
        rw [ht] at h
        simp only [List.map_cons, toSet] at h ⊢
        have hr := reduceAny_congr (l := j :: items)
        simp only [List.map_cons] at hr
        rw [readItem_toSet, ← h]
        simp only [hr]

/-! ### wildcards -/

theorem reads_wild {s : PyStr} {t : OpType} {p q : Spelling} {v : Version} (hs : clearWhitespace s = clearWhitespace (t.string ++ opText t p.text))
    (ht : t.isWildcard = true) (hq : q.WF) (hz : q.EndsInZero) (h : wildcardString p.text = q.wild '*')
    (hv : Version.parse q.text = .ok v) : Reads s (.one ⟨t, v⟩) := by
  have h4 := (op_words t).2.2.2
  have e : opText t p.text = q.wild '*' := by unfold opText; rw [if_pos ht, h]
  have hpl : Plain (t.string ++ opText t p.text) := by
    rw [e]
    exact Plain.append (op_plain h4) (wild_plain hq (.inr (.inr rfl)))
  rw [hpl.clear] at hs
  refine ⟨hs ▸ hpl, ?_, ?_⟩
  · rw [hs, e]
    simp [Spelling.wild]
  · have := parse_wild ht hq hz h
    rw [parse_plain hpl] at this
    rw [hs, this]
    exact makeOne_ok hv (create_wild ht v)

theorem reads_wild_short {t : OpType} {v : Version} (hv : v.Canonical) (ht : t.isWildcard = true) (hl : v.local_ = none) :
    Reads (Operator.toShortStr ⟨t, v⟩) (.one ⟨t, v.zeroLast⟩) := by
  have hz := zeroLast_canonical hv
  obtain ⟨h1, h2⟩ := wild_canonical (style_short .pre []) (style_short .post ['.']) (style_short .dev ['.']) hv hl
  refine reads_wild (p := shortSpelling v) (q := shortSpelling v.zeroLast) ?_ ht (good_shortSpelling hz).1 h1 h2 ?_
  · rw [clear_opShortStr, ← text_short hv.valid]
  · rw [← text_short hz.valid, parse_short hz]

theorem zeroLast_noCandidate {v : Version} (h : NoCandidate v) : NoCandidate v.zeroLast := by
  obtain ⟨e, r, a, b, c, l⟩ := v
  cases c with
  | some _ => exact h
  | none => cases b with
    | some _ => exact h
    | none => cases a with
      | none => exact h
      | some t =>
        rintro _ ⟨⟩
        exact h t rfl

theorem reads_wild_long {t : OpType} {v : Version} (hv : v.Canonical) (hn : NoCandidate v) (ht : t.isWildcard = true) (hl : v.local_ = none) :
    Reads (Operator.toStr ⟨t, v⟩) (.one ⟨t, v.zeroLast⟩) := by
  have hz := zeroLast_canonical hv
  have hnz := zeroLast_noCandidate hn
  obtain ⟨h1, h2⟩ := wild_canonical (style_long .pre) (style_long .post) (style_long .dev) hv hl
  refine reads_wild (p := longSpelling v) (q := longSpelling v.zeroLast) ?_ ht (good_longSpelling hz hnz).1 h1 h2 ?_
  · rw [clear_opStr, ← text_long hv.valid]
  · rw [← text_long hz.valid, parse_long hz hnz]

/-! ### the printers of the code -/

/-- `to_short_string`. -/
def shortPrinter : Printer where
  ver := Version.toShortStr
  op := Operator.toShortStr
  comma := ",".toList
  pipe := "||".toList
  P v := v.Canonical ∧ v.local_ = none
  Q v := v.Canonical

/-- `to_string`. -/
def longPrinter : Printer where
  ver := Version.toStr
  op := Operator.toStr
  comma := ", ".toList
  pipe := " || ".toList
  P v := v.Canonical ∧ NoCandidate v ∧ v.local_ = none
  Q v := v.Canonical ∧ NoCandidate v

theorem shortPrinter_good : shortPrinter.Good where
  comma := by decide
  pipe := by decide
  ver v hv := by
    have := reads_version (good_shortSpelling hv).1 (text_short hv.valid ▸ parse_short hv)
    rwa [← text_short hv.valid] at this
  ne v hv := reads_short hv rfl (.inr (.inr (.inr rfl))) rfl
  op v hv t ht := by
    rcases ht with rfl | rfl | rfl | rfl <;> exact reads_short hv.1 rfl (.inl hv.2) rfl

theorem longPrinter_good : longPrinter.Good where
  comma := by decide
  pipe := by decide
  ver v hv := by
    have := reads_version (good_longSpelling hv.1 hv.2).1 (text_long hv.1.valid ▸ parse_long hv.1 hv.2)
    rwa [← text_long hv.1.valid] at this
  ne v hv := reads_long hv.1 hv.2 rfl (.inr (.inr (.inr rfl))) rfl
  op v hv t ht := by
    show Reads (Operator.toStr ⟨t, v⟩) _
    rcases ht with rfl | rfl | rfl | rfl
    · exact reads_long (t := .less) hv.1 hv.2.1 rfl (.inl hv.2.2) rfl
    · exact reads_long (t := .lessOrEqual) hv.1 hv.2.1 rfl (.inl hv.2.2) rfl
    · exact reads_long (t := .greater) hv.1 hv.2.1 rfl (.inl hv.2.2) rfl
    · exact reads_long (t := .greaterOrEqual) hv.1 hv.2.1 rfl (.inl hv.2.2) rfl

theorem short_item {i : Item} (hi : i.Normal) : i.toShortStr = .ok (shortPrinter.item i) := by
  cases i with
  | point v => rfl
  | range r =>
    obtain ⟨mn, mx, x, y⟩ := r
    simp only [Item.toShortStr, isEmpty_false hi, isPoint_range_false hi]
    cases hu : (Item.range ⟨mn, mx, x, y⟩).isUniversal with
    | true =>
      have := (isUniversal_iff hi).1 hu
      unfold universalItem at this
      cases this
      rfl
    | false =>
      cases mn with
      | none => cases mx with
        | none =>
          obtain ⟨g1, g2, -⟩ := hi
          obtain rfl : x = false := g1 rfl
          obtain rfl : y = false := g2 rfl
          exact absurd hu (by decide)
        | some b => cases y <;> simp [Item.boundOperators, Item.min, Item.max, Item.fields, Item.includeMax, Operator.create, bind, Except.bind, join, shortPrinter, Printer.item]
      | some a => cases mx with
        | none => cases x <;> simp [Item.boundOperators, Item.min, Item.max, Item.fields, Item.includeMin, Operator.create, bind, Except.bind, join, shortPrinter, Printer.item]
        | some b =>
          cases x <;> cases y <;>
            simp [Item.boundOperators, Item.min, Item.max, Item.fields, Item.includeMin, Item.includeMax, Operator.create, bind, Except.bind, shortPrinter, Printer.item]

theorem long_item {i : Item} (hi : i.Normal) : i.toStr = .ok (longPrinter.item i) := by
  cases i with
  | point v => rfl
  | range r =>
    obtain ⟨mn, mx, x, y⟩ := r
    simp only [Item.toStr, isEmpty_false hi, isPoint_range_false hi]
    cases hu : (Item.range ⟨mn, mx, x, y⟩).isUniversal with
    | true =>
      have := (isUniversal_iff hi).1 hu
      unfold universalItem at this
      cases this
      rfl
    | false =>
      cases mn with
      | none => cases mx with
        | none =>
          obtain ⟨g1, g2, -⟩ := hi
          obtain rfl : x = false := g1 rfl
          obtain rfl : y = false := g2 rfl
          exact absurd hu (by decide)
        | some b => cases y <;> simp [Item.boundOperators, Item.min, Item.max, Item.fields, Item.includeMax, Operator.create, bind, Except.bind, join, longPrinter, Printer.item]
      | some a => cases mx with
        | none => cases x <;> simp [Item.boundOperators, Item.min, Item.max, Item.fields, Item.includeMin, Operator.create, bind, Except.bind, join, longPrinter, Printer.item]
        | some b =>
          cases x <;> cases y <;>
            simp [Item.boundOperators, Item.min, Item.max, Item.fields, Item.includeMin, Item.includeMax, Operator.create, bind, Except.bind, longPrinter, Printer.item]

theorem mapM_items {f : Item → Except PyErr PyStr} {g : Item → PyStr} {l : List Item} (h : ∀ i ∈ l, f i = .ok (g i)) : l.mapM f = .ok (l.map g) := by
  induction l with
  | nil => rfl
  | cons i l ih =>
    rw [List.mapM_cons, h i (by simp), ih (fun j hj => h j (by simp [hj]))]
    rfl

theorem short_set_round_trip {x : VSet} (hx : x.Normal) (hne : x ≠ .empty) (hok : ∀ i, x.Has i → shortPrinter.Ok i) :
    ∃ s y, (∀ lim, x.toShortStr lim = .ok s) ∧ (∀ lim, VSet.parse (lim + 2) s = .ok y) ∧ y.Normal ∧ y.eq x = true := by
  obtain ⟨s, t, y, h, h1, h2, h3, h4⟩ := set_round_trip shortPrinter_good (fun v hv => hv.1) hx hne hok
  refine ⟨s, y, fun lim => ?_, fun lim => ?_, h3, h4⟩
  · rcases h with ⟨i, rfl, rfl⟩ | ⟨items, rfl, ⟨v, hv, rfl⟩ | ⟨hv, rfl⟩⟩
    · exact short_item hx
    · simp only [VSet.toShortStr, hv, bind, Except.bind]
      rfl
    · simp only [VSet.toShortStr, hv, bind, Except.bind]
      rw [mapM_items (g := shortPrinter.item) (fun i hi => short_item (hx.2.1 i hi))]
      rfl
  · simp only [VSet.parse, h1, bind, Except.bind, h2]

theorem long_set_round_trip {x : VSet} (hx : x.Normal) (hne : x ≠ .empty) (hok : ∀ i, x.Has i → longPrinter.Ok i) :
    ∃ s y, (∀ lim, x.toStr lim = .ok s) ∧ (∀ lim, VSet.parse (lim + 2) s = .ok y) ∧ y.Normal ∧ y.eq x = true := by
  obtain ⟨s, t, y, h, h1, h2, h3, h4⟩ := set_round_trip longPrinter_good (fun v hv => ⟨hv.1, hv.2.1⟩) hx hne hok
  refine ⟨s, y, fun lim => ?_, fun lim => ?_, h3, h4⟩
  · rcases h with ⟨i, rfl, rfl⟩ | ⟨items, rfl, ⟨v, hv, rfl⟩ | ⟨hv, rfl⟩⟩
    · exact long_item hx
    · simp only [VSet.toStr, hv, bind, Except.bind]
      rfl
    · simp only [VSet.toStr, hv, bind, Except.bind]
      rw [mapM_items (g := longPrinter.item) (fun i hi => long_item (hx.2.1 i hi))]
      rfl
  · simp only [VSet.parse, h1, bind, Except.bind, h2]

/-! ### parentheses -/

theorem splitAt_cons_false {p : Char → Bool} {c : Char} (h : p c = false) (s : PyStr) : ∃ w ws, splitAt p (c :: s) = (c :: w) :: ws := by
  rw [splitAt]
  simp only [h]
  cases splitAt p s with
  | nil => exact ⟨[], [], rfl⟩
  | cons w ws => exact ⟨w, ws, rfl⟩

theorem single_paren (s : PyStr) : parseSingle ('(' :: s) = .error .parseSpecificationError := by
  have h1 : ∀ e ∈ compareWords, ∀ c ∈ e.1, IsOpChar c := by decide
  have h2 : ∀ e ∈ equalWords, ∀ c ∈ e.1, IsOpChar c := by decide
  have h3 : ∀ e ∈ wildcardWords, ∀ c ∈ e.1, IsOpChar c := by decide
  have op : ¬ IsOpChar '(' := by decide
  have bad : ∀ {o w : PyStr}, (∀ c ∈ o, IsOpChar c) → Plain w → '(' :: s ≠ o ++ w := by
    intro o w ho hw e
    have hm : '(' ∈ o ++ w := e ▸ List.mem_cons_self
    rcases List.mem_append.1 hm with h | h
    · exact op (ho _ h)
    · exact hw _ h (by decide)
  rcases single_cases ('(' :: s) with ⟨o, t, p, ho, hp, -, e⟩ | ⟨o, t, p, ho, hp, e⟩ | ⟨o, t, p, c, ho, hp, hz, hc, e⟩ | h
  · exact absurd e (bad (h1 _ ho) (fun c hc => text_specials hp hc))
  · exact absurd e (bad (h2 _ ho) (fun c hc => text_specials hp hc))
  · exact absurd e (bad (h3 _ ho) (wild_plain hp hc))
  · exact h

theorem parse_paren (s : PyStr) : Specifier.parse ('(' :: s) = .error .parseSpecificationError := by
  unfold Specifier.parse parseAny splitPipes
  have e1 : clearWhitespace ('(' :: s) = '(' :: clearWhitespace s := by
    rw [clearWhitespace_eq, clearWhitespace_eq, List.filter_cons_of_pos (by decide)]
  have e2 : replacePipes ('(' :: clearWhitespace s) = '(' :: replacePipes (clearWhitespace s) :=
    replacePipes_append (a := ['(']) (by decide)
  rw [e1, e2]
  obtain ⟨w, ws, h⟩ := splitAt_cons_false (p := (fun c => decide (c = '|'))) (c := '(') (by decide) (replacePipes (clearWhitespace s))
  rw [h, mapAll]
  have : parseAll ('(' :: w) = .error .parseSpecificationError := by
    unfold parseAll splitComma
    obtain ⟨w', ws', h'⟩ := splitAt_cons_false (p := (fun c => decide (c = ','))) (c := '(') (by decide) w
    rw [h', mapAll, single_paren]
    rfl
  rw [this]
  rfl

end Verif
