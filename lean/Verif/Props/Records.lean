import Verif.Model.Records
import Verif.Props.Parsing
import Verif.Props.Segments
/-!
# C83: strings and representations determine versions; parts of segments
-/

namespace Verif

/-- The string before the pre tag. -/
def beforePre (v : Version) : PyStr := (Version.epochPart v.epoch).flatten ++ v.release.toStr ++ ['-']

/-- The string after the phase of the pre tag. -/
def afterPhase (v : Version) (t : Tag) : PyStr :=
  '.' :: intStr t.value ++ (Version.part ['-'] Tag.toStr v.post).flatten ++ (Version.part ['-'] Tag.toStr v.dev).flatten ++
    (Version.part ['+'] Local.toStr v.local_).flatten

theorem long_text (v : Version) (t : Tag) (ht : v.pre = some t) : v.toStr = beforePre v ++ (t.phase ++ afterPhase v t) := by
  have e : t.toStr = t.phase ++ '.' :: intStr t.value := by simp [Tag.toStr, join]
  unfold Version.toStr beforePre afterPhase
  rw [join_nil, ht]
  simp only [List.flatten_append]
  simp [Version.part, e]

theorem beforePre_c (v : Version) (hv : v.Canonical) : 'c' ∉ beforePre v := by
  have nd : ∀ d, Digits d → 'c' ∉ d := fun d hd hc => absurd (hd.2 _ hc) (by decide)
  unfold beforePre
  simp only [List.mem_append, not_or]
  refine ⟨⟨?_, ?_⟩, by decide⟩
  · unfold Version.epochPart
    split
    · simp only [List.flatten_cons, List.flatten_nil, List.mem_append, not_or]
      exact ⟨nd _ (intStr_digits hv.epoch), by decide, by simp⟩
    · simp
  · have hr := hv.release
    unfold Release.NonNeg at hr
    unfold Release.toStr
    cases hp : v.release.parts with
    | nil => exact absurd hp hv.valid.release
    | cons x r =>
      rw [hp] at hr
      intro hc
      rw [List.map_cons, join_cons, List.mem_append] at hc
      rcases hc with hc | hc
      · exact nd _ (intStr_digits (hr x (by simp))) hc
      · simp only [List.map_map, List.mem_flatten, List.mem_map] at hc
        obtain ⟨_, ⟨y, hy, rfl⟩, hc⟩ := hc
        simp only [Function.comp, List.cons_append, List.nil_append, List.mem_cons] at hc
        rcases hc with hc | hc
        · exact absurd hc (by decide)
        · exact nd _ (intStr_digits (hr y (by simp [hy]))) hc

theorem split_first {c : Char} {a b x y : PyStr} (ha : c ∉ a) (hb : c ∉ b) (h : a ++ c :: x = b ++ c :: y) : a = b ∧ x = y := by
  induction a generalizing b with
  | nil =>
    cases b with
    | nil => simpa using h
    | cons d b => simp at h; exact absurd h.1 (by rintro rfl; simp at hb)
  | cons d a ih =>
    cases b with
    | nil => simp at h; exact absurd h.1 (by rintro rfl; simp at ha)
    | cons e b =>
      simp only [List.cons_append, List.cons.injEq] at h
      obtain ⟨h1, h2⟩ := ih (b := b) (by simp at ha; exact ha.2) (by simp at hb; exact hb.2) h.2
      exact ⟨by rw [h.1, h1], h2⟩

/-- The version with the phase of its pre tag set to rc. -/
def asRc (v : Version) (t : Tag) : Version := { v with pre := some ⟨"rc".toList, t.value⟩ }

theorem asRc_canonical {v : Version} {t : Tag} (hv : v.Canonical) (ht : v.pre = some t) : (asRc v t).Canonical := by
  have h := hv.valid
  refine ⟨⟨h.release, ?_, h.post, h.dev, h.local_⟩, hv.epoch, hv.release, ?_, hv.post, hv.dev, hv.local_⟩
  · rintro _ ⟨⟩
    exact ⟨"rc", by decide, rfl⟩
  · rintro _ ⟨⟩
    exact hv.pre t ht

/-- C83. Canonical versions with the same string are the same, field by field. -/
theorem C83_string (v w : Version) (hv : v.Canonical) (hw : w.Canonical) : v.toStr = w.toStr ↔ v = w := by
  refine ⟨fun h => ?_, fun h => by rw [h]⟩
  have key : ∀ v : Version, v.Canonical → (∀ w : Version, w.Canonical → v.toStr = w.toStr →
      (∃ t, v.pre = some t ∧ t.phase = "candidate".toList) → ∃ t, w.pre = some t ∧ t.phase = "candidate".toList) := by
    rintro v hv w hw h ⟨t, ht, hc⟩
    by_contra hn
    have hn' : ∀ t, w.pre = some t → t.phase ≠ "candidate".toList := fun t ht e => hn ⟨t, ht, e⟩
    have h1 := parse_candidate hv ht hc
    rw [h, parse_long hw hn'] at h1
    cases h1
  by_cases hc : ∃ t, v.pre = some t ∧ t.phase = "candidate".toList
  · obtain ⟨s, hs, es⟩ := hc
    obtain ⟨t, ht, et⟩ := key v hv w hw h ⟨s, hs, es⟩
    rw [long_text v s hs, long_text w t ht, es, et] at h
    obtain ⟨h1, h2⟩ := split_first (x := "andidate".toList ++ afterPhase v s) (y := "andidate".toList ++ afterPhase w t)
      (beforePre_c v hv) (beforePre_c w hw) h
    rw [List.append_cancel_left_eq] at h2
    have e : (asRc v s).toStr = (asRc w t).toStr := by
      rw [long_text (asRc v s) _ rfl, long_text (asRc w t) _ rfl]
      show beforePre v ++ ("rc".toList ++ afterPhase v s) = beforePre w ++ ("rc".toList ++ afterPhase w t)
      rw [h1, h2]
    have p1 := parse_long (asRc_canonical hv hs) (by rintro _ ⟨⟩; show "rc".toList ≠ _; decide)
    have p2 := parse_long (asRc_canonical hw ht) (by rintro _ ⟨⟩; show "rc".toList ≠ _; decide)
    rw [e, p2] at p1
    have := Except.ok.inj p1
    obtain ⟨a1, a2, a3, a4, a5, a6⟩ := v
    obtain ⟨b1, b2, b3, b4, b5, b6⟩ := w
    obtain ⟨sp, sn⟩ := s
    obtain ⟨tp, tn⟩ := t
    simp only [asRc, Version.mk.injEq, Option.some.injEq, Tag.mk.injEq] at this hs ht es et ⊢
    simp_all
  · have hn : ¬ ∃ t, w.pre = some t ∧ t.phase = "candidate".toList := fun g => hc (key w hw v hv h.symm g)
    have h1 := parse_long hv (fun t ht e => hc ⟨t, ht, e⟩)
    rw [h, parse_long hw (fun t ht e => hn ⟨t, ht, e⟩)] at h1
    exact (Except.ok.inj h1).symm

example : (exVersion [1, 0] (some ⟨"candidate".toList, 1⟩)).toStr = "1.0-candidate.1".toList ∧
    (exVersion [1, 0] (some ⟨"rc".toList, 1⟩)).toStr = "1.0-rc.1".toList := by decide +kernel

theorem representation_inj (name : String) (wrap : Bool) (s t : PyStr) : representation name wrap s = representation name wrap t ↔ s = t := by
  unfold representation wrapAround
  cases wrap <;> simp

/-- C83. So do their representations, and those of segments determine the segments. -/
theorem C83_repr :
    (∀ v w : Version, v.Canonical → w.Canonical → (v.repr = w.repr ↔ v = w)) ∧
    (∀ e f : Epoch, e.repr = f.repr ↔ e = f) ∧
    (∀ r s : Release, r.Valid → s.Valid → (r.repr = s.repr ↔ r = s)) ∧
    (∀ cls d, ∀ s t : Tag, s.Valid cls → t.Valid d → 0 ≤ s.value → 0 ≤ t.value → (s.repr cls = t.repr d ↔ cls = d ∧ s = t)) ∧
    (∀ l m : Local, l.parts ≠ [] → m.parts ≠ [] → (∀ x ∈ l.parts, x.Readable) → (∀ x ∈ m.parts, x.Readable) → (l.repr = m.repr ↔ l = m)) := by
  refine ⟨fun v w hv hw => ?_, fun e f => ?_, fun r s hr hs => ?_, fun cls d s t hs ht ns nt => ?_, fun l m hl hm rl rm => ?_⟩
  · unfold Version.repr
    rw [representation_inj, C83_string v w hv hw]
  · unfold Epoch.repr
    rw [representation_inj]
    refine ⟨fun h => ?_, fun h => by rw [h]⟩
    have := C63_epoch e
    rw [h, C63_epoch f] at this
    exact (Except.ok.inj this).symm
  · unfold Release.repr
    rw [representation_inj]
    refine ⟨fun h => ?_, fun h => by rw [h]⟩
    have := C63_release r hr
    rw [h, C63_release s hs] at this
    exact (Except.ok.inj this).symm
  · unfold Tag.repr
    constructor
    · intro h
      have hc : cls = d := by
        cases cls <;> cases d <;> first | rfl | (simp [representation, TagClass.name] at h)
      subst hc
      rw [representation_inj] at h
      have := (C63_tag cls s hs ns).1
      rw [h, (C63_tag cls t ht nt).1] at this
      exact ⟨rfl, (Except.ok.inj this).symm⟩
    · rintro ⟨rfl, rfl⟩; rfl
  · unfold Local.repr
    rw [representation_inj]
    refine ⟨fun h => ?_, fun h => by rw [h]⟩
    have := (C63_local l hl).2 rl
    rw [h, (C63_local m hm).2 rm] at this
    exact (Except.ok.inj this).symm

/-- Zeros at the end and the spelling of a phase show in representations, though versions that differ so compare equal. -/
example : (exVersion [1]).repr ≠ (exVersion [1, 0]).repr ∧ ((exVersion [1]) ==ₚ (exVersion [1, 0])) = true ∧
    Tag.repr .pre ⟨"rc".toList, 1⟩ ≠ Tag.repr .pre ⟨"candidate".toList, 1⟩ ∧ Tag.repr .post ⟨"post".toList, 1⟩ ≠ Tag.repr .dev ⟨"post".toList, 1⟩ := by
  decide +kernel

/-- C83. Representations are the name of the class and the string in parentheses; `SpecifierAny` and `SpecifierAll` do not
add parentheses to those that their strings have. -/
theorem C83_frame (v : Version) (e : Epoch) (r : Release) (t : Tag) (l : Local) (o : Operator) (ls : List Specifier) :
    v.repr = "<Version (".toList ++ v.toStr ++ ")>".toList ∧ e.repr = "<Epoch (".toList ++ e.toStr ++ ")>".toList ∧
    r.repr = "<Release (".toList ++ r.toStr ++ ")>".toList ∧ l.repr = "<Local (".toList ++ l.toStr ++ ")>".toList ∧
    t.repr .pre = "<PreTag (".toList ++ t.toStr ++ ")>".toList ∧ t.repr .post = "<PostTag (".toList ++ t.toStr ++ ")>".toList ∧
    t.repr .dev = "<DevTag (".toList ++ t.toStr ++ ")>".toList ∧ o.repr = "<Operator (".toList ++ o.toStr ++ ")>".toList ∧
    (Specifier.one o).repr = "<SpecifierOne (".toList ++ o.toStr ++ ")>".toList ∧
    Specifier.never.repr = "<SpecifierNever (0)>".toList ∧ Specifier.always.repr = "<SpecifierAlways (*)>".toList ∧
    (Specifier.any ls).repr = "<SpecifierAny ".toList ++ (Specifier.any ls).toStr ++ ">".toList ∧
    (Specifier.all ls).repr = "<SpecifierAll ".toList ++ (Specifier.all ls).toStr ++ ">".toList := by
  refine ⟨?_, ?_, ?_, ?_, ?_, ?_, ?_, ?_, ?_, ?_, ?_, ?_, ?_⟩
  all_goals simp [Version.repr, Epoch.repr, Release.repr, Local.repr, Tag.repr, Operator.repr, Specifier.repr, TagClass.name, representation, wrapAround, Specifier.toStr]

example : (exVersion [1, 0] (some rcTag)).repr = "<Version (1.0-rc.1)>".toList ∧ Tag.repr .pre rcTag = "<PreTag (rc.1)>".toList ∧
    (Specifier.any [.one ⟨.caret, exVersion [1]⟩, .one ⟨.less, exVersion [3]⟩]).repr = "<SpecifierAny (^1 || < 3)>".toList ∧
    (Specifier.one ⟨.less, exVersion [3]⟩).repr = "<SpecifierOne (< 3)>".toList := by
  refine ⟨by decide +kernel, by decide +kernel, by rfl, by rfl⟩

/-- C83. Releases and local segments are their parts: every constructor fails on no parts, and otherwise gives the segment
with these parts; `set_parts` forgets the old parts. -/
theorem C83_parts (ps : List Int) (qs : List LocalPart) (r : Release) (l : Local) :
    (ps = [] → Release.fromParts ps = .error .valueError ∧ Release.fromIterable ps = .error .valueError ∧ r.setParts ps = .error .valueError) ∧
    (ps ≠ [] → ∃ s, Release.fromParts ps = .ok s ∧ Release.fromIterable ps = .ok s ∧ r.setParts ps = .ok s ∧ s.intoParts = ps ∧ s.Valid) ∧
    (qs = [] → Local.fromParts qs = .error .valueError ∧ Local.fromIterable qs = .error .valueError ∧ l.setParts qs = .error .valueError) ∧
    (qs ≠ [] → ∃ m, Local.fromParts qs = .ok m ∧ Local.fromIterable qs = .ok m ∧ l.setParts qs = .ok m ∧ m.intoParts = qs) ∧
    (r.Valid → Release.fromParts r.intoParts = .ok r) ∧ (l.parts ≠ [] → Local.fromParts l.intoParts = .ok l) := by
  refine ⟨?_, fun h => ⟨⟨ps⟩, ?_⟩, ?_, fun h => ⟨⟨qs⟩, ?_⟩, fun h => ?_, fun h => ?_⟩
  · rintro rfl; exact ⟨rfl, rfl, rfl⟩
  · simp [Release.fromParts, Release.fromIterable, Release.setParts, Release.create, Release.intoParts, Release.Valid, h]
  · rintro rfl; exact ⟨rfl, rfl, rfl⟩
  · simp [Local.fromParts, Local.fromIterable, Local.setParts, Local.create, Local.intoParts, h]
  · have h' : r.parts ≠ [] := h
    simp [Release.fromParts, Release.create, Release.intoParts, h']
  · simp [Local.fromParts, Local.create, Local.intoParts, h]

example : Release.fromParts [1, 2] = .ok ⟨[1, 2]⟩ ∧ (⟨[5]⟩ : Release).setParts [1, 2] = .ok ⟨[1, 2]⟩ ∧ Release.fromParts [] = .error .valueError := by
  decide +kernel

/-- C83. `Tag.create` accepts exactly the long and short phases of the class, and is a `ValueError` for everything else;
without phase it takes the default one. -/
theorem C83_tag (cls : TagClass) (phase : PyStr) (value : Int) :
    (∀ t, Tag.createOptional cls (some phase) value = .ok t ↔
      t.value = value ∧ t.Valid cls ∧ (phase = t.phase ∨ (phase, t.phase) ∈ Spelling.phaseMeaning)) ∧
    ((∀ t, Tag.createOptional cls (some phase) value ≠ .ok t) → Tag.createOptional cls (some phase) value = .error .valueError) ∧
    ∃ t, Tag.createOptional cls none value = .ok t ∧ t.value = value ∧ t.Valid cls ∧ Tag.default cls = .ok { t with value := 0 } := by
  have hL : ∀ phase, phase ∈ Phases.preSet ++ Phases.postSet ++ Phases.devSet ∨
      (Tag.convertPhase phase = phase ∧ ∀ cls : TagClass, phase ∉ cls.phaseSet) := by
    intro phase
    by_cases h : phase ∈ Phases.preSet ++ Phases.postSet ++ Phases.devSet
    · exact .inl h
    · right
      simp only [List.mem_append, not_or] at h
      refine ⟨?_, fun cls => by cases cls; exacts [h.1.1, h.1.2, h.2]⟩
      unfold Tag.convertPhase dictGet
      rw [List.find?_eq_none.2]
      · rfl
      · intro e he hk
        have aux : ∀ e ∈ Phases.shortToPhase, e.1 ∈ Phases.preSet ∨ e.1 ∈ Phases.postSet ∨ e.1 ∈ Phases.devSet := by decide +kernel
        have := aux e he
        rw [beq_iff_eq.1 hk] at this
        tauto
  have key : ∀ cls : TagClass, ∀ p ∈ Phases.preSet ++ Phases.postSet ++ Phases.devSet,
      (Tag.convertPhase p ∈ cls.phaseSet → Tag.convertPhase p ∈ cls.phases.map String.toList ∧
        (p = Tag.convertPhase p ∨ (p, Tag.convertPhase p) ∈ Spelling.phaseMeaning)) := by
    intro cls; cases cls <;> decide +kernel
  have back : ∀ cls : TagClass, ∀ q ∈ cls.phases.map String.toList, Tag.convertPhase q = q ∧ q ∈ cls.phaseSet ∧
      ∀ e ∈ Spelling.phaseMeaning, e.2 = q → Tag.convertPhase e.1 = q := by
    intro cls; cases cls <;> decide +kernel
  refine ⟨fun t => ⟨fun h => ?_, ?_⟩, fun h => ?_, ?_⟩
  · simp only [Tag.createOptional, Tag.create] at h
    split at h
    · rename_i hm
      cases h
      rcases hL phase with hp | ⟨h1, h2⟩
      · obtain ⟨k1, k2⟩ := key cls phase hp hm
        obtain ⟨s, hs, e⟩ := List.mem_map.1 k1
        exact ⟨rfl, ⟨s, hs, e.symm⟩, k2⟩
      · rw [h1] at hm
        exact absurd hm (h2 cls)
    · cases h
  · rintro ⟨rfl, hv, hp⟩
    obtain ⟨b1, b2, b3⟩ := back cls t.phase (valid_mem hv)
    have e : Tag.convertPhase phase = t.phase := by
      rcases hp with rfl | hp
      · exact b1
      · exact b3 _ hp rfl
    simp [Tag.createOptional, Tag.create, e, b2]
  · simp only [Tag.createOptional, Tag.create] at h ⊢
    split
    · rename_i hm
      rw [if_pos hm] at h
      exact absurd rfl (h _)
    · rfl
  · have aux : ∀ cls : TagClass, ∃ p ∈ cls.phases.map String.toList, Tag.convertPhase cls.defaultPhase = p ∧ p ∈ cls.phaseSet := by
      intro cls; cases cls <;> decide +kernel
    obtain ⟨p, hp, e, hm⟩ := aux cls
    obtain ⟨s, hs, es⟩ := List.mem_map.1 hp
    refine ⟨⟨p, value⟩, by simp [Tag.createOptional, Tag.create, e, hm], rfl, ⟨s, hs, es.symm⟩, by simp [Tag.default, Tag.create, e, hm]⟩

example : Tag.createOptional .pre (some "c".toList) 3 = .ok ⟨"candidate".toList, 3⟩ ∧ Tag.createOptional .pre (some "rev".toList) 3 = .error .valueError ∧
    Tag.createOptional .pre (some "A".toList) 3 = .error .valueError ∧ Tag.createOptional .post none 3 = .ok ⟨"post".toList, 3⟩ := by decide +kernel

end Verif
