import Verif.Proofs.SetReading
import Verif.Props.Failures
import Verif.Props.Records
import Verif.Spec.HideLast
import Verif.Spec.Specifiers
/-!
# Strings of specifiers determine the specifiers
-/

namespace Verif
open Re Specifier

/-! ### versions -/

/-- Characters of the strings of specifiers which are not in the strings of versions. -/
def marks : List Char := " ,|()*".toList

theorem spelling_marks {p : Spelling} (hp : p.WF) {c : Char} (h : c ∈ p.text) : c ∉ marks := by
  have ha := Re.allows_of_mem _ _ _ ((version_iff _ _).2 ⟨p, hp, rfl, rfl⟩) c h
  intro hc
  have : ∀ c ∈ marks, allows Pattern.version c = false := by decide +kernel
  rw [this c hc] at ha
  cases ha

theorem long_marks {v : Version} (hv : v.Canonical) : (∃ c l, v.toStr = c :: l ∧ IsDigit c) ∧ ∀ c ∈ v.toStr, c ∉ marks := by
  have key : ∀ {v : Version}, v.Canonical → (∀ t, v.pre = some t → t.phase ≠ "candidate".toList) →
      (∃ c l, v.toStr = c :: l ∧ IsDigit c) ∧ ∀ c ∈ v.toStr, c ∉ marks := by
    intro v hv hn
    have h := (good_longSpelling hv hn).1
    rw [text_long hv.valid]
    exact ⟨text_head h rfl, fun c hc => spelling_marks h hc⟩
  by_cases hn : ∀ t, v.pre = some t → t.phase ≠ "candidate".toList
  · exact key hv hn
  · simp only [not_forall, not_not] at hn
    obtain ⟨t, ht, hc⟩ := hn
    obtain ⟨⟨c, l, h1, h2⟩, h3⟩ := key (asRc_canonical hv ht) (by rintro _ ⟨⟩; show "rc".toList ≠ "candidate".toList; decide)
    have e1 := long_text v t ht
    have e2 := long_text (asRc v t) ⟨"rc".toList, t.value⟩ rfl
    have e3 : beforePre (asRc v t) = beforePre v := rfl
    have e4 : afterPhase (asRc v t) ⟨"rc".toList, t.value⟩ = afterPhase v t := rfl
    rw [e3, e4] at e2
    have hb : beforePre v ≠ [] := by unfold beforePre; simp
    constructor
    · rw [e1]
      rw [e2] at h1
      cases hB : beforePre v with
      | nil => exact absurd hB hb
      | cons d m =>
        rw [hB] at h1
        simp only [List.cons_append, List.cons.injEq] at h1
        exact ⟨d, _, rfl, h1.1 ▸ h2⟩
    · intro c hm
      rw [e1] at hm
      rw [e2] at h3
      simp only [List.mem_append] at hm h3
      rcases hm with h | h | h
      · exact h3 c (.inl h)
      · rw [hc] at h
        have : ∀ c ∈ "candidate".toList, c ∉ marks := by decide
        exact this c h
      · exact h3 c (.inr (.inr h))

theorem short_marks {v : Version} (hv : v.Canonical) : (∃ c l, v.toShortStr = c :: l ∧ IsDigit c) ∧ ∀ c ∈ v.toShortStr, c ∉ marks := by
  have h := (good_shortSpelling hv).1
  rw [text_short hv.valid]
  exact ⟨text_head h rfl, fun c hc => spelling_marks h hc⟩

/-- What wildcards hide. -/
theorem wildcard_inj {ver : Version → PyStr} (inj : ∀ v w, v.Canonical → w.Canonical → (ver v = ver w ↔ v = w))
    (hw : ∀ v, v.Canonical → v.local_ = none → ∃ a, ver v.zeroLast = a ++ ['0'] ∧ wildcardString (ver v) = a ++ ['*'])
    {v w : Version} (hv : v.Canonical) (hv' : v.local_ = none) (hw1 : w.Canonical) (hw' : w.local_ = none) :
    wildcardString (ver v) = wildcardString (ver w) ↔ v.zeroLast = w.zeroLast := by
  obtain ⟨a, a1, a2⟩ := hw v hv hv'
  obtain ⟨b, b1, b2⟩ := hw w hw1 hw'
  rw [← inj _ _ (zeroLast_canonical hv) (zeroLast_canonical hw1), a1, a2, b1, b2]
  simp

theorem zero_text {p : Spelling} (hz : p.EndsInZero) : ∃ a, p.text = a ++ ['0'] := by
  have tag : ∀ (a : PyStr) (t : TagSpelling), Spelling.TagZero t → ∃ b, a ++ t.text = b ++ ['0'] := by
    rintro a ⟨s, q, v⟩ ⟨s', rfl⟩
    exact ⟨a ++ (s ++ (q ++ s')), by simp [TagSpelling.text, TagSpelling.body, TagSpelling.valueText]⟩
  obtain ⟨v, e, m, l, a, b, d, loc⟩ := p
  obtain ⟨hloc, hz⟩ := hz
  dsimp only at hloc hz
  subst hloc
  simp only [Spelling.text, Spelling.localText, Spelling.optText, List.append_nil]
  cases d with
  | some t => exact tag _ t (by simpa using hz)
  | none =>
    cases b with
    | some b =>
      cases b with
      | implicit d =>
        have hz : d = ['0'] := by cases a <;> simpa using hz
        subst hz
        simp only [List.append_nil, PostSpelling.text]
        exact ⟨_, (List.append_cons _ _ _)⟩
      | tag t =>
        have hz : Spelling.TagZero t := by cases a <;> simpa using hz
        simp only [List.append_nil, PostSpelling.text]
        exact tag _ t hz
    | none =>
      simp only [List.append_nil]
      cases a with
      | some t => exact tag _ t (by simpa using hz)
      | none =>
        simp only [List.append_nil]
        have hz : (m :: l).getLast (by simp) = ['0'] := by simpa using hz
        rcases List.eq_nil_or_concat l with rfl | ⟨l', d, rfl⟩
        · simp only [List.getLast_singleton] at hz
          subst hz
          exact ⟨v ++ Spelling.epochText e, by simp [Spelling.releaseText]⟩
        · simp only [List.concat_eq_append] at hz ⊢
          have hz : d = ['0'] := by
            rw [List.getLast_cons (by simp), List.getLast_append_singleton] at hz
            exact hz
          subst hz
          exact ⟨v ++ Spelling.epochText e ++ Spelling.releaseText m l' ++ ['.'], by simp [Spelling.releaseText]⟩

theorem wild_text {f g h : Tag → TagSpelling} (hf : Style .pre f) (hg : Style .post g) (hh : Style .dev h) {v : Version}
    (hv : v.Canonical) (hl : v.local_ = none) :
    ∃ a, (canonicalSpelling f g h v.zeroLast).text = a ++ ['0'] ∧ wildcardString (canonicalSpelling f g h v).text = a ++ ['*'] := by
  obtain ⟨h1, h2⟩ := wild_canonical hf hg hh hv hl
  obtain ⟨a, ha⟩ := zero_text h1
  refine ⟨a, ha, ?_⟩
  rw [h2, Spelling.wild, ha, List.dropLast_concat]

/-! ### printers -/

/-- How specifiers are printed: the operator with what follows it, the version, and what joins specifiers. -/
structure SpecPrinter where
  lead : OpType → PyStr
  ver : Version → PyStr
  any : PyStr
  all : PyStr

namespace SpecPrinter

mutual
/-- The string of a specifier. -/
def text (q : SpecPrinter) : Specifier → PyStr
  | .never => ['0']
  | .always => ['*']
  | .one o => q.lead o.type ++ opText o.type (q.ver o.version)
  | .any [] => "()".toList
  | .any (s :: l) => '(' :: (q.text s ++ q.rest q.any l)
  | .all [] => "()".toList
  | .all (s :: l) => '(' :: (q.text s ++ q.rest q.all l)
/-- What follows the first specifier in parentheses. -/
def rest (q : SpecPrinter) (sep : PyStr) : List Specifier → PyStr
  | [] => [')']
  | s :: l => sep ++ (q.text s ++ q.rest sep l)
end

/-- `to_string`. -/
def long : SpecPrinter where
  lead t := if t.isUnary then t.string else t.string ++ [' ']
  ver := Version.toStr
  any := " || ".toList
  all := ", ".toList

/-- `to_short_string`. -/
def short : SpecPrinter where
  lead := OpType.string
  ver := Version.toShortStr
  any := "||".toList
  all := ",".toList

theorem joined (sep : PyStr) (q : SpecPrinter) (s : Specifier) (l : List Specifier) :
    wrapAround (join sep (q.text s :: l.map q.text)) = '(' :: (q.text s ++ q.rest sep l) := by
  have key : ∀ l : List Specifier, ((l.map q.text).map (sep ++ ·)).flatten ++ [')'] = q.rest sep l := by
    intro l
    induction l with
    | nil => simp [rest]
    | cons s l ih => simp [rest, ← ih]
  rw [wrapAround, join_cons, ← key]
  simp

theorem lead_long (o : Operator) : o.toStr = long.lead o.type ++ opText o.type o.version.toStr := by
  unfold Operator.toStr long opText
  dsimp only
  cases o.type.isUnary with
  | true => rw [if_pos rfl, if_pos rfl, join_none]
  | false =>
    simp only [Bool.false_eq_true, if_false]
    rw [join_cons]
    simp

mutual
theorem text_long : ∀ s : Specifier, s.toStr = long.text s
  | .never => by simp [toStr, text]
  | .always => by simp [toStr, text]
  | .one o => by simp only [toStr, text]; exact lead_long o
  | .any [] => by simp [toStr, toStrs, text, wrapAround, join]
  | .any (s :: l) => by
    rw [toStr, toStrs, text_long s, texts_long l, text]
    exact joined _ long s l
  | .all [] => by simp [toStr, toStrs, text, wrapAround, join]
  | .all (s :: l) => by
    rw [toStr, toStrs, text_long s, texts_long l, text]
    exact joined _ long s l
theorem texts_long : ∀ l : List Specifier, toStrs l = l.map long.text
  | [] => rfl
  | s :: l => by rw [toStrs, text_long s, texts_long l]; rfl
end

mutual
theorem text_short : ∀ s : Specifier, s.toShortStr = short.text s
  | .never => by simp [toShortStr, text]
  | .always => by simp [toShortStr, text]
  | .one o => by
    simp only [toShortStr, text, Operator.toShortStr, short]
    rw [join_none]
    rfl
  | .any [] => by simp [toShortStr, toShortStrs, text, wrapAround, join]
  | .any (s :: l) => by
    rw [toShortStr, toShortStrs, text_short s, texts_short l, text]
    exact joined _ short s l
  | .all [] => by simp [toShortStr, toShortStrs, text, wrapAround, join]
  | .all (s :: l) => by
    rw [toShortStr, toShortStrs, text_short s, texts_short l, text]
    exact joined _ short s l
theorem texts_short : ∀ l : List Specifier, toShortStrs l = l.map short.text
  | [] => rfl
  | s :: l => by rw [toShortStrs, text_short s, texts_short l]; rfl
end

/-- Characters before the version. -/
def leads : List Char := "<>=!~^ ".toList
/-- Characters after a specifier. -/
def stops : List Char := " ,|)".toList

/-- What is needed to tell strings apart. -/
structure Good (q : SpecPrinter) : Prop where
  lead : ∀ t, q.lead t ≠ [] ∧ ∀ c ∈ q.lead t, c ∈ leads
  leadInj : ∀ t u, q.lead t = q.lead u → t.isWildcard = u.isWildcard → t = u
  ver : ∀ v : Version, v.Canonical → (∃ c l, q.ver v = c :: l ∧ IsDigit c) ∧ ∀ c ∈ q.ver v, c ∉ marks
  verInj : ∀ v w : Version, v.Canonical → w.Canonical → (q.ver v = q.ver w ↔ v = w)
  wild : ∀ v : Version, v.Canonical → v.local_ = none → ∃ a, q.ver v.zeroLast = a ++ ['0'] ∧ wildcardString (q.ver v) = a ++ ['*']
  anyStop : ∃ c l, q.any = c :: l ∧ c ∈ stops
  allStop : ∃ c l, q.all = c :: l ∧ c ∈ stops
  differ : ∀ r r', q.any ++ r ≠ q.all ++ r'
  anyEnd : ∀ r r', q.any ++ r ≠ ')' :: r'
  allEnd : ∀ r r', q.all ++ r ≠ ')' :: r'

theorem good_long : long.Good where
  lead t := by cases t <;> decide
  leadInj t u := by cases t <;> cases u <;> decide
  ver v hv := long_marks hv
  verInj := C83_string
  wild v hv hl := by
    obtain ⟨a, h1, h2⟩ := wild_text (style_long _) (style_long _) (style_long _) hv hl
    exact ⟨a, (Verif.text_long (zeroLast_canonical hv).valid).trans h1, (congrArg _ (Verif.text_long hv.valid)).trans h2⟩
  anyStop := ⟨' ', _, rfl, by decide⟩
  allStop := ⟨',', _, rfl, by decide⟩
  differ r r' := by simp [long]
  anyEnd r r' := by simp [long]
  allEnd r r' := by simp [long]

theorem good_short : short.Good where
  lead t := by cases t <;> decide
  leadInj t u := by cases t <;> cases u <;> decide
  ver v hv := short_marks hv
  verInj v w hv hw := ⟨C38_short_injective v w hv hw, fun h => by rw [h]⟩
  wild v hv hl := by
    obtain ⟨a, h1, h2⟩ := wild_text (style_short _ _) (style_short _ _) (style_short _ _) hv hl
    exact ⟨a, (Verif.text_short (zeroLast_canonical hv).valid).trans h1, (congrArg _ (Verif.text_short hv.valid)).trans h2⟩
  anyStop := ⟨'|', _, rfl, by decide⟩
  allStop := ⟨',', _, rfl, by decide⟩
  differ r r' := by simp [short]
  anyEnd r r' := by simp [short]
  allEnd r r' := by simp [short]

/-- What may follow a specifier. -/
def Stop (r : PyStr) : Prop := ∀ c l, r = c :: l → c ∈ stops

/-- The text of a specifier that is not in parentheses: what precedes the version, and the version. -/
structure Leaf (p b : PyStr) : Prop where
  lead : ∀ c ∈ p, c ∈ leads
  head : ∃ c l, b = c :: l ∧ c ∉ leads ∧ c ≠ '('
  body : ∀ c ∈ b, c ∉ stops

theorem leaf_unique {p b r p' b' r' : PyStr} (h : Leaf p b) (h' : Leaf p' b') (hr : Stop r) (hr' : Stop r')
    (e : p ++ b ++ r = p' ++ b' ++ r') : p = p' ∧ b = b' ∧ r = r' := by
  have tk : ∀ {p b r : PyStr}, Leaf p b → (p ++ b ++ r).takeWhile (· ∈ leads) = p := by
    intro p b r h
    obtain ⟨c, l, rfl, hc, -⟩ := h.head
    rw [List.append_assoc, List.takeWhile_append_of_pos (by simpa using h.lead), List.cons_append,
      List.takeWhile_cons_of_neg (by simpa using hc), List.append_nil]
  have tb : ∀ {p b r : PyStr}, Leaf p b → Stop r → (b ++ r).takeWhile (· ∉ stops) = b := by
    intro p b r h hr
    rw [List.takeWhile_append_of_pos (by simpa using h.body)]
    cases r with
    | nil => simp
    | cons c l => rw [List.takeWhile_cons_of_neg (by simpa using hr c l rfl), List.append_nil]
  have h1 : p = p' := by rw [← tk h (r := r), e, tk h']
  subst h1
  rw [List.append_assoc, List.append_assoc] at e
  have e := List.append_cancel_left e
  have h2 : b = b' := by rw [← tb h hr, e, tb h' hr']
  subst h2
  exact ⟨rfl, rfl, List.append_cancel_left e⟩

variable {q : SpecPrinter}

/-- Operators whose strings are considered. -/
def OpOk (o : Operator) : Prop := o.version.Canonical ∧ (o.type.isWildcard = true → o.version.local_ = none)

theorem stops_marks : ∀ c ∈ stops, c ∈ marks := by decide

theorem op_leaf (hq : q.Good) {o : Operator} (ho : OpOk o) : Leaf (q.lead o.type) (opText o.type (q.ver o.version)) := by
  have dig : ∀ c, IsDigit c → c ∉ leads ∧ c ≠ '(' := by
    intro c hc
    have : ∀ c ∈ '(' :: leads, ¬ IsDigit c := by decide
    exact ⟨fun h => this c (by simp [h]) hc, fun h => this c (by simp [h]) hc⟩
  have key : (∃ c l, opText o.type (q.ver o.version) = c :: l ∧ c ∉ leads ∧ c ≠ '(') ∧ ∀ c ∈ opText o.type (q.ver o.version), c ∉ stops := by
    unfold opText
    split
    · rename_i hw
      obtain ⟨a, a1, a2⟩ := hq.wild o.version ho.1 (ho.2 hw)
      obtain ⟨⟨c, l, h1, h2⟩, h3⟩ := hq.ver _ (zeroLast_canonical ho.1)
      rw [a1] at h1 h3
      rw [a2]
      constructor
      · cases a with
        | nil => exact ⟨'*', [], rfl, by decide, by decide⟩
        | cons d a =>
          simp only [List.cons_append, List.cons.injEq] at h1
          exact ⟨d, _, rfl, dig d (h1.1 ▸ h2)⟩
      · intro c hc
        rcases List.mem_append.1 hc with hc | hc
        · exact fun hs => h3 c (by simp [hc]) (stops_marks c hs)
        · rw [List.mem_singleton] at hc
          subst hc
          decide
    · obtain ⟨⟨c, l, h1, h2⟩, h3⟩ := hq.ver o.version ho.1
      exact ⟨⟨c, l, h1, dig c h2⟩, fun c hc hs => h3 c hc (stops_marks c hs)⟩
  exact ⟨(hq.lead _).2, key.1, key.2⟩

theorem star_last (hq : q.Good) {o : Operator} (ho : OpOk o) : '*' ∈ opText o.type (q.ver o.version) ↔ o.type.isWildcard = true := by
  unfold opText
  split
  · rename_i hw
    obtain ⟨a, a1, a2⟩ := hq.wild o.version ho.1 (ho.2 hw)
    rw [a2]
    simp [hw]
  · rename_i hw
    exact ⟨fun h => absurd (by decide) ((hq.ver o.version ho.1).2 _ h), fun h => absurd h hw⟩

theorem op_unique (hq : q.Good) {o u : Operator} (ho : OpOk o) (hu : OpOk u) :
    q.lead o.type = q.lead u.type ∧ opText o.type (q.ver o.version) = opText u.type (q.ver u.version) ↔ o.hideLast = u.hideLast := by
  have wild : ∀ {o : Operator}, o.hideLast.type = o.type := by
    intro o; unfold Operator.hideLast; split <;> rfl
  have step : o.type = u.type → (opText o.type (q.ver o.version) = opText u.type (q.ver u.version) ↔ o.hideLast = u.hideLast) := by
    intro ht
    obtain ⟨t, v⟩ := o
    obtain ⟨t', w⟩ := u
    cases ht
    unfold opText Operator.hideLast
    dsimp only
    split
    · rename_i hw
      rw [wildcard_inj hq.verInj hq.wild ho.1 (ho.2 hw) hu.1 (hu.2 hw)]
      simp
    · rw [hq.verInj _ _ ho.1 hu.1]
      simp
  constructor
  · rintro ⟨h1, h2⟩
    have hw : o.type.isWildcard = u.type.isWildcard := by
      rw [Bool.eq_iff_iff, ← star_last hq ho, ← star_last hq hu, h2]
    exact (step (hq.leadInj _ _ h1 hw)).1 h2
  · intro h
    have ht : o.type = u.type := by rw [← wild (o := o), h, wild]
    exact ⟨by rw [ht], (step ht).2 h⟩

theorem stop_any (hq : q.Good) (s : PyStr) : Stop (q.any ++ s) := by
  obtain ⟨c, l, h, hc⟩ := hq.anyStop
  rw [h]
  rintro _ _ ⟨⟩
  exact hc

theorem stop_all (hq : q.Good) (s : PyStr) : Stop (q.all ++ s) := by
  obtain ⟨c, l, h, hc⟩ := hq.allStop
  rw [h]
  rintro _ _ ⟨⟩
  exact hc

theorem stop_rest {sep : PyStr} (hs : ∀ s, Stop (sep ++ s)) (l : List Specifier) (r : PyStr) : Stop (q.rest sep l ++ r) := by
  cases l with
  | nil =>
    rw [rest]
    rintro _ _ ⟨⟩
    decide
  | cons s l =>
    rw [rest, List.append_assoc]
    exact hs _

/-- The text of a specifier that is not in parentheses. -/
def leaf (q : SpecPrinter) : Specifier → Option (PyStr × PyStr)
  | .never => some ([], ['0'])
  | .always => some ([], ['*'])
  | .one o => some (q.lead o.type, opText o.type (q.ver o.version))
  | _ => none

theorem leaf_text (hq : q.Good) {s : Specifier} (ho : ∀ o, s.Uses o → OpOk o) {p b : PyStr} (h : q.leaf s = some (p, b)) :
    q.text s = p ++ b ∧ Leaf p b := by
  cases s with
  | never => cases h; exact ⟨by simp [text], by decide, ⟨'0', [], rfl, by decide, by decide⟩, by decide⟩
  | always => cases h; exact ⟨by simp [text], by decide, ⟨'*', [], rfl, by decide, by decide⟩, by decide⟩
  | one o => cases h; exact ⟨by rw [text], op_leaf hq (ho _ (.one _))⟩
  | any l => cases h
  | all l => cases h

theorem leaf_hide (hq : q.Good) {s t : Specifier} (hs : ∀ o, s.Uses o → OpOk o) (ht : ∀ o, t.Uses o → OpOk o) {x : PyStr × PyStr}
    (h1 : q.leaf s = some x) (h2 : q.leaf t = some x) : s.hideLast = t.hideLast := by
  have ne := fun t => (hq.lead t).1
  cases s <;> cases t <;> simp only [leaf, Option.some.injEq, reduceCtorEq] at h1 h2 <;> subst h1 <;> simp only [Prod.mk.injEq] at h2
  · rfl
  · exact absurd h2.2 (by decide)
  · exact absurd h2.1 (ne _)
  · exact absurd h2.2 (by decide)
  · rfl
  · exact absurd h2.1 (ne _)
  · exact absurd h2.1.symm (ne _)
  · exact absurd h2.1.symm (ne _)
  · rename_i o u
    have := (op_unique hq (ht u (.one u)) (hs o (.one o))).1 h2
    simp only [hideLast, this]

theorem leaf_paren {p b r x : PyStr} (h : Leaf p b) (e : p ++ b ++ r = '(' :: x) : False := by
  obtain ⟨c, l, rfl, -, hc⟩ := h.head
  cases p with
  | nil =>
    simp only [List.nil_append, List.cons_append, List.cons.injEq] at e
    exact hc e.1
  | cons d p =>
    simp only [List.cons_append, List.cons.injEq] at e
    have := h.lead d (by simp)
    rw [e.1] at this
    exact absurd this (by decide)

theorem leaf_cases (hq : q.Good) {s t : Specifier} (hs : ∀ o, s.Uses o → OpOk o) (ht : ∀ o, t.Uses o → OpOk o) {r r' : PyStr} (hr : Stop r) (hr' : Stop r')
    (e : q.text s ++ r = q.text t ++ r') {x y : PyStr × PyStr} (hx : q.leaf s = some x) (hy : q.leaf t = some y) : s.hideLast = t.hideLast ∧ r = r' := by
  obtain ⟨p, b⟩ := x
  obtain ⟨p', b'⟩ := y
  obtain ⟨h1, h2⟩ := leaf_text hq hs hx
  obtain ⟨h3, h4⟩ := leaf_text hq ht hy
  rw [h1, h3] at e
  obtain ⟨rfl, rfl, rfl⟩ := leaf_unique h2 h4 hr hr' e
  exact ⟨leaf_hide hq hs ht hx hy, rfl⟩

theorem leaf_none {t : Specifier} (ht : t.Valid) (h : q.leaf t = none) : ∃ x, q.text t = '(' :: x := by
  cases ht with
  | never => cases h
  | always => cases h
  | one => cases h
  | @any l g => match l, g with
    | b :: m, _ => exact ⟨_, by rw [text]⟩
  | @all l g => match l, g with
    | b :: m, _ => exact ⟨_, by rw [text]⟩

theorem leaf_first (hq : q.Good) {s t : Specifier} (hs : ∀ o, s.Uses o → OpOk o) (vt : t.Valid) (ht : ∀ o, t.Uses o → OpOk o) {r r' : PyStr} (hr : Stop r) (hr' : Stop r')
    (e : q.text s ++ r = q.text t ++ r') {x : PyStr × PyStr} (hx : q.leaf s = some x) : s.hideLast = t.hideLast ∧ r = r' := by
  cases hy : q.leaf t with
  | some y => exact leaf_cases hq hs ht hr hr' e hx hy
  | none =>
    obtain ⟨h1, h2⟩ := leaf_text hq hs hx
    obtain ⟨y, h3⟩ := leaf_none vt hy
    rw [h1, h3] at e
    exact (leaf_paren h2 e).elim

mutual
/-- A string begins with the string of at most one specifier that a stop follows. -/
theorem text_unique (hq : q.Good) : ∀ s : Specifier, s.Valid → (∀ o, s.Uses o → OpOk o) → ∀ t : Specifier, t.Valid → (∀ o, t.Uses o → OpOk o) →
    ∀ r r', Stop r → Stop r' → q.text s ++ r = q.text t ++ r' → s.hideLast = t.hideLast ∧ r = r'
  | .any [], hs, _ => by cases hs with | any h _ => simp at h
  | .all [], hs, _ => by cases hs with | all h _ => simp at h
  | .any [_], hs, _ => by cases hs with | any h _ => simp at h
  | .all [_], hs, _ => by cases hs with | all h _ => simp at h
  | .never, _, os => fun _ ht ot _ _ hr hr' e => leaf_first hq os ht ot hr hr' e rfl
  | .always, _, os => fun _ ht ot _ _ hr hr' e => leaf_first hq os ht ot hr hr' e rfl
  | .one _, _, os => fun _ ht ot _ _ hr hr' e => leaf_first hq os ht ot hr hr' e rfl
  | .any (a :: a2 :: l), hs, os => by
    intro t ht ot r r' hr hr' e
    cases hy : q.leaf t with
    | some y =>
      obtain ⟨h1, h2⟩ := leaf_text hq ot hy
      rw [h1, text] at e
      exact (leaf_paren h2 e.symm).elim
    | none =>
      have vs : ∀ s ∈ a :: a2 :: l, s.Valid := by cases hs with | any _ h => exact h
      cases ht with
      | @any m g vt =>
        match m, g with
        | b :: b2 :: m, _ =>
          rw [text, text, List.cons_append, List.cons_append, List.append_assoc, List.append_assoc, List.cons.injEq] at e
          obtain ⟨h1, h2⟩ := text_unique hq a (vs a (by simp)) (fun o ho => os o (.any (by simp) ho)) b (vt b (by simp))
            (fun o ho => ot o (.any (by simp) ho)) _ _ (stop_rest (stop_any hq) _ _) (stop_rest (stop_any hq) _ _) e.2
          obtain ⟨h3, h4⟩ := rest_unique hq q.any (stop_any hq) hq.anyEnd (a2 :: l) (fun s hs => vs s (List.mem_cons_of_mem _ hs))
            (fun s hs o ho => os o (.any (List.mem_cons_of_mem _ hs) ho)) (b2 :: m) (fun s hs => vt s (List.mem_cons_of_mem _ hs))
            (fun s hs o ho => ot o (.any (List.mem_cons_of_mem _ hs) ho)) _ _ h2
          refine ⟨?_, h4⟩
          rw [hideLast, hideLast, hideLasts, hideLasts.eq_2 b, h1, h3]
      | @all m g vt =>
        match m, g with
        | b :: b2 :: m, _ =>
          rw [text, text, List.cons_append, List.cons_append, List.append_assoc, List.append_assoc, List.cons.injEq] at e
          obtain ⟨h1, h2⟩ := text_unique hq a (vs a (by simp)) (fun o ho => os o (.any (by simp) ho)) b (vt b (by simp))
            (fun o ho => ot o (.all (by simp) ho)) _ _ (stop_rest (stop_any hq) _ _) (stop_rest (stop_all hq) _ _) e.2
          simp only [rest, List.append_assoc] at h2
          exact absurd h2 (hq.differ _ _)
      | _ => cases hy
  | .all (a :: a2 :: l), hs, os => by
    intro t ht ot r r' hr hr' e
    cases hy : q.leaf t with
    | some y =>
      obtain ⟨h1, h2⟩ := leaf_text hq ot hy
      rw [h1, text] at e
      exact (leaf_paren h2 e.symm).elim
    | none =>
      have vs : ∀ s ∈ a :: a2 :: l, s.Valid := by cases hs with | all _ h => exact h
      cases ht with
      | @all m g vt =>
        match m, g with
        | b :: b2 :: m, _ =>
          rw [text, text, List.cons_append, List.cons_append, List.append_assoc, List.append_assoc, List.cons.injEq] at e
          obtain ⟨h1, h2⟩ := text_unique hq a (vs a (by simp)) (fun o ho => os o (.all (by simp) ho)) b (vt b (by simp))
            (fun o ho => ot o (.all (by simp) ho)) _ _ (stop_rest (stop_all hq) _ _) (stop_rest (stop_all hq) _ _) e.2
          obtain ⟨h3, h4⟩ := rest_unique hq q.all (stop_all hq) hq.allEnd (a2 :: l) (fun s hs => vs s (List.mem_cons_of_mem _ hs))
            (fun s hs o ho => os o (.all (List.mem_cons_of_mem _ hs) ho)) (b2 :: m) (fun s hs => vt s (List.mem_cons_of_mem _ hs))
            (fun s hs o ho => ot o (.all (List.mem_cons_of_mem _ hs) ho)) _ _ h2
          refine ⟨?_, h4⟩
          rw [hideLast, hideLast, hideLasts, hideLasts.eq_2 b, h1, h3]
      | @any m g vt =>
        match m, g with
        | b :: b2 :: m, _ =>
          rw [text, text, List.cons_append, List.cons_append, List.append_assoc, List.append_assoc, List.cons.injEq] at e
          obtain ⟨h1, h2⟩ := text_unique hq a (vs a (by simp)) (fun o ho => os o (.all (by simp) ho)) b (vt b (by simp))
            (fun o ho => ot o (.any (by simp) ho)) _ _ (stop_rest (stop_all hq) _ _) (stop_rest (stop_any hq) _ _) e.2
          simp only [rest, List.append_assoc] at h2
          exact absurd h2.symm (hq.differ _ _)
      | _ => cases hy
theorem rest_unique (hq : q.Good) (sep : PyStr) (hp : ∀ s, Stop (sep ++ s)) (he : ∀ r r', sep ++ r ≠ ')' :: r') :
    ∀ l : List Specifier, (∀ s ∈ l, s.Valid) → (∀ s ∈ l, ∀ o, s.Uses o → OpOk o) → ∀ m : List Specifier, (∀ s ∈ m, s.Valid) → (∀ s ∈ m, ∀ o, s.Uses o → OpOk o) →
    ∀ r r', q.rest sep l ++ r = q.rest sep m ++ r' → hideLasts l = hideLasts m ∧ r = r'
  | [], _, _ => by
    intro m _ _ r r' e
    cases m with
    | nil =>
      rw [rest] at e
      exact ⟨rfl, List.append_cancel_left e⟩
    | cons b m =>
      rw [rest, rest, List.append_assoc] at e
      exact absurd e.symm (he _ _)
  | a :: l, vs, os => by
    intro m vt ot r r' e
    cases m with
    | nil =>
      rw [rest, rest, List.append_assoc] at e
      exact absurd e (he _ _)
    | cons b m =>
      simp only [rest, List.append_assoc] at e
      have e := List.append_cancel_left e
      obtain ⟨h1, h2⟩ := text_unique hq a (vs a (by simp)) (os a (by simp)) b (vt b (by simp)) (ot b (by simp)) _ _ (stop_rest hp _ _) (stop_rest hp _ _) e
      obtain ⟨h3, h4⟩ := rest_unique hq sep hp he l (fun s hs => vs s (List.mem_cons_of_mem _ hs)) (fun s hs => os s (List.mem_cons_of_mem _ hs)) m
        (fun s hs => vt s (List.mem_cons_of_mem _ hs)) (fun s hs => ot s (List.mem_cons_of_mem _ hs)) _ _ h2
      refine ⟨?_, h4⟩
      rw [hideLasts, hideLasts, h1, h3]
end

mutual
theorem text_of_hide (hq : q.Good) : ∀ s : Specifier, (∀ o, s.Uses o → OpOk o) → ∀ t : Specifier, (∀ o, t.Uses o → OpOk o) → s.hideLast = t.hideLast → q.text s = q.text t
  | .never, _ => by intro t _ h; cases t <;> simp only [hideLast, reduceCtorEq] at h; rfl
  | .always, _ => by intro t _ h; cases t <;> simp only [hideLast, reduceCtorEq] at h; rfl
  | .one o, os => by
    intro t ot h
    cases t <;> simp only [hideLast, reduceCtorEq, Specifier.one.injEq] at h
    obtain ⟨h1, h2⟩ := (op_unique hq (os _ (.one _)) (ot _ (.one _))).2 h
    rw [text, text, h1, h2]
  | .any [], os => by
    intro t ot h
    cases t <;> simp only [hideLast, reduceCtorEq, Specifier.any.injEq] at h
    rename_i m
    cases m with
    | nil => rfl
    | cons => simp [hideLasts] at h
  | .all [], os => by
    intro t ot h
    cases t <;> simp only [hideLast, reduceCtorEq, Specifier.all.injEq] at h
    rename_i m
    cases m with
    | nil => rfl
    | cons => simp [hideLasts] at h
  | .any (a :: l), os => by
    intro t ot h
    cases t <;> simp only [hideLast, reduceCtorEq, Specifier.any.injEq] at h
    rename_i m
    cases m with
    | nil => simp [hideLasts] at h
    | cons b m =>
      simp only [hideLasts, List.cons.injEq] at h
      rw [text, text, text_of_hide hq a (fun o ho => os o (.any (by simp) ho)) b (fun o ho => ot o (.any (by simp) ho)) h.1,
        rest_of_hide hq q.any l (fun s hs o ho => os o (.any (List.mem_cons_of_mem _ hs) ho)) m (fun s hs o ho => ot o (.any (List.mem_cons_of_mem _ hs) ho)) h.2]
  | .all (a :: l), os => by
    intro t ot h
    cases t <;> simp only [hideLast, reduceCtorEq, Specifier.all.injEq] at h
    rename_i m
    cases m with
    | nil => simp [hideLasts] at h
    | cons b m =>
      simp only [hideLasts, List.cons.injEq] at h
      rw [text, text, text_of_hide hq a (fun o ho => os o (.all (by simp) ho)) b (fun o ho => ot o (.all (by simp) ho)) h.1,
        rest_of_hide hq q.all l (fun s hs o ho => os o (.all (List.mem_cons_of_mem _ hs) ho)) m (fun s hs o ho => ot o (.all (List.mem_cons_of_mem _ hs) ho)) h.2]
theorem rest_of_hide (hq : q.Good) (sep : PyStr) : ∀ l : List Specifier, (∀ s ∈ l, ∀ o, s.Uses o → OpOk o) → ∀ m : List Specifier,
    (∀ s ∈ m, ∀ o, s.Uses o → OpOk o) → hideLasts l = hideLasts m → q.rest sep l = q.rest sep m
  | [], _ => by
    intro m _ h
    cases m with
    | nil => rfl
    | cons => simp [hideLasts] at h
  | a :: l, os => by
    intro m ot h
    cases m with
    | nil => simp [hideLasts] at h
    | cons b m =>
      simp only [hideLasts, List.cons.injEq] at h
      rw [rest, rest, text_of_hide hq a (os a (by simp)) b (ot b (by simp)) h.1,
        rest_of_hide hq sep l (fun s hs => os s (List.mem_cons_of_mem _ hs)) m (fun s hs => ot s (List.mem_cons_of_mem _ hs)) h.2]
end

theorem text_iff (hq : q.Good) {s t : Specifier} (vs : s.Valid) (vt : t.Valid) (hs : ∀ o, s.Uses o → OpOk o) (ht : ∀ o, t.Uses o → OpOk o) :
    q.text s = q.text t ↔ s.hideLast = t.hideLast := by
  refine ⟨fun h => ?_, text_of_hide hq s hs t ht⟩
  exact (text_unique hq s vs hs t vt ht [] [] nofun nofun (by rw [h])).1

end SpecPrinter
end Verif
