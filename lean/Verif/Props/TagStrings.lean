import Verif.Model.BaseTag
import Verif.Props.Records
/-!
# Tags: strings, phases and the base class (C92)
-/

namespace Verif
open scoped Verif
open Re Spelling

/-- Letters, then possibly digits with or without a separator before them. -/
def TagText (s word : PyStr) (value : Option (PyStr × PyStr)) : Prop :=
  s = word ++ (match value with | none => [] | some (sep, d) => sep ++ d) ∧ (word ≠ [] ∧ ∀ c ∈ word, IsLetter c) ∧
    ∀ sep d, value = some (sep, d) → OptSep sep ∧ Digits d

/-- The number in the text of a tag; 0 if there is none. -/
def textNumber (value : Option (PyStr × PyStr)) : Int := match value with
  | none => 0
  | some (_, d) => number d

theorem matches_tag (w : PyStr) (c : Caps) (h : Matches Pattern.tag w c) : ∃ word value, TagText w word value := by
  have hal : ∀ w c, Matches (plus Pattern.alpha) w c ↔ (w ≠ [] ∧ ∀ c ∈ w, IsLetter c) ∧ c = [] := by
    intro w c
    unfold Pattern.alpha
    rw [plus_chr_iff]
    simp only [isAlpha_iff]
  obtain ⟨w1, w2, c1, c2, rfl, rfl, ⟨c3, h1, rfl⟩, h2⟩ := h
  obtain ⟨h1', rfl⟩ := (hal _ _).1 h1
  rcases h2 with h2 | ⟨rfl, rfl⟩
  · obtain ⟨s, d, hs, hd, rfl, rfl⟩ := (valueRe_iff .value _ _).1 h2
    exact ⟨w1, some (s, d), rfl, h1', by rintro _ _ ⟨⟩; exact ⟨hs, hd⟩⟩
  · exact ⟨w1, none, rfl, h1', by simp⟩

/-- Parsing is matching the text and calling the constructor. -/
theorem tag_parse_text (cls : TagClass) {s word : PyStr} {value : Option (PyStr × PyStr)} (h : TagText s word value) :
    Tag.parse cls s = Tag.create cls word (textNumber value) ∧ BaseTag.parse s = BaseTag.create word (textNumber value) := by
  obtain ⟨rfl, hw, hv⟩ := h
  obtain ⟨m, h1, h2, h3⟩ := fullmatch_tag word value hw hv
  unfold Tag.parse BaseTag.parse
  cases value with
  | none =>
    simp only [TagSpelling.valueText] at h1
    simp only [h1, h2, h3]
    exact ⟨rfl, rfl⟩
  | some x =>
    obtain ⟨sep, d⟩ := x
    simp only [TagSpelling.valueText] at h1
    simp only [h1, h2, h3, Option.map_some, pyInt_digits (hv _ _ rfl).2]
    exact ⟨rfl, rfl⟩

theorem parse_no_text (cls : TagClass) {s : PyStr} (h : ¬ ∃ word value, TagText s word value) :
    Tag.parse cls s = .error .parseTagError ∧ BaseTag.parse s = .error .parseTagError := by
  have : fullmatch Pattern.tag s = none := (fullmatch_none _ _).2 fun ⟨c, hc⟩ => h (matches_tag s c hc)
  unfold Tag.parse BaseTag.parse
  rw [this]
  exact ⟨rfl, rfl⟩

theorem create_iff (cls : TagClass) (phase : PyStr) (value : Int) :
    (∀ t, Tag.create cls phase value = .ok t ↔
      t.value = value ∧ t.Valid cls ∧ (phase = t.phase ∨ (phase, t.phase) ∈ Spelling.phaseMeaning)) ∧
    ((∀ t, Tag.create cls phase value ≠ .ok t) → Tag.create cls phase value = .error .valueError) :=
  ⟨(C83_tag cls phase value).1, (C83_tag cls phase value).2.1⟩

/-- C92. A tag of a class is read from exactly the texts `word`, `word` `n`, `word` `sep` `n`, with a word for one of the phases
of the class in lower case. Texts of another form are a ParseTagError, those with another word a ValueError. -/
theorem C92_strings (cls : TagClass) (s : PyStr) :
    (∀ t, Tag.parse cls s = .ok t ↔ ∃ word value, TagText s word value ∧ t.value = textNumber value ∧ t.Valid cls ∧
      (word = t.phase ∨ (word, t.phase) ∈ Spelling.phaseMeaning)) ∧
    (Tag.parse cls s = .error .parseTagError ↔ ¬ ∃ word value, TagText s word value) ∧
    (Tag.parse cls s = .error .valueError ↔ (∃ word value, TagText s word value) ∧ ∀ t, Tag.parse cls s ≠ .ok t) := by
  by_cases h : ∃ word value, TagText s word value
  · obtain ⟨word, value, h⟩ := h
    have hp := (tag_parse_text cls h).1
    have hc := create_iff cls word (textNumber value)
    refine ⟨fun t => ⟨fun ht => ?_, ?_⟩, ⟨fun he => ?_, fun hn => absurd ⟨_, _, h⟩ hn⟩, ⟨fun he => ⟨⟨_, _, h⟩, fun t ht => ?_⟩, ?_⟩⟩
    · rw [hp] at ht
      exact ⟨word, value, h, (hc.1 t).1 ht⟩
    · rintro ⟨word', value', h', ht⟩
      rw [(tag_parse_text cls h').1]
      exact ((create_iff cls word' (textNumber value')).1 t).2 ht
    · rw [hp] at he
      unfold Tag.create at he
      simp only at he
      split at he <;> cases he
    · rw [ht] at he; cases he
    · rintro ⟨-, hn⟩
      rw [hp] at hn ⊢
      exact hc.2 hn
  · have hp := (parse_no_text cls h).1
    rw [hp]
    refine ⟨fun t => ⟨fun ht => ?_, fun ⟨w, v, h', _⟩ => absurd ⟨w, v, h'⟩ h⟩, ⟨fun _ => h, fun _ => rfl⟩, ⟨fun he => ?_, fun h' => absurd h'.1 h⟩⟩
    · cases ht
    · cases he

example : Tag.parse .pre "rc-1".toList = .ok ⟨"rc".toList, 1⟩ ∧ Tag.parse .pre "candidate".toList = .ok ⟨"candidate".toList, 0⟩ ∧
    Tag.parse .pre "RC1".toList = .error .valueError ∧ Tag.parse .pre "post1".toList = .error .valueError ∧
    Tag.parse .pre "rc.".toList = .error .parseTagError ∧ Tag.parse .pre ".rc1".toList = .error .parseTagError := by decide +kernel

/-- C92. Every phase belongs to one class. -/
theorem C92_disjoint (cls d : TagClass) (t : Tag) (h : t.Valid cls) (h' : t.Valid d) : cls = d := by
  have aux : ∀ cls d : TagClass, ∀ p ∈ cls.phases.map String.toList, p ∈ d.phases.map String.toList → cls = d := by
    intro cls d
    cases cls <;> cases d <;> decide +kernel
  exact aux cls d _ (valid_mem h) (valid_mem h')

example : ¬ rcTag.Valid .post ∧ rcTag.Valid .pre := by decide +kernel

theorem base_create (phase : PyStr) (value : Int) :
    (∀ t, BaseTag.create phase value = .ok t ↔ ∃ cls, Tag.create cls phase value = .ok t) ∧
    ((∀ t, BaseTag.create phase value ≠ .ok t) → BaseTag.create phase value = .error .valueError) := by
  have hs : ∀ p, p ∈ BaseTag.phaseSet ↔ ∃ cls : TagClass, p ∈ cls.phaseSet := by
    intro p
    unfold BaseTag.phaseSet
    simp only [List.mem_append]
    constructor
    · rintro ((h | h) | h)
      · exact ⟨.pre, h⟩
      · exact ⟨.post, h⟩
      · exact ⟨.dev, h⟩
    · rintro ⟨cls, h⟩
      cases cls
      · exact .inl (.inl h)
      · exact .inl (.inr h)
      · exact .inr h
  unfold BaseTag.create Tag.create
  simp only
  by_cases h : Tag.convertPhase phase ∈ BaseTag.phaseSet
  · simp only [h, if_true]
    obtain ⟨cls, hc⟩ := (hs _).1 h
    refine ⟨fun t => ⟨fun ht => ⟨cls, by rw [if_pos hc]; exact ht⟩, ?_⟩, fun hn => absurd rfl (hn _)⟩
    rintro ⟨d, hd⟩
    split at hd
    · exact hd
    · cases hd
  · simp only [h, if_false]
    refine ⟨fun t => ⟨fun ht => (nomatch ht), ?_⟩, by simp⟩
    rintro ⟨d, hd⟩
    rw [if_neg fun hm => h ((hs _).2 ⟨d, hm⟩)] at hd
    cases hd

/-- C92. `Tag` itself reads exactly what one of its three subclasses reads, as the same phase and value, and no text is read by
two of them. It fails with ParseTagError exactly if they all do, and otherwise with ValueError. -/
theorem C92_base (s : PyStr) :
    (∀ t, BaseTag.parse s = .ok t ↔ ∃ cls, Tag.parse cls s = .ok t) ∧
    (∀ cls d t u, Tag.parse cls s = .ok t → Tag.parse d s = .ok u → cls = d ∧ t = u) ∧
    (BaseTag.parse s = .error .parseTagError ↔ ∀ cls, Tag.parse cls s = .error .parseTagError) ∧
    (BaseTag.parse s = .error .valueError ↔ ∀ cls, Tag.parse cls s = .error .valueError) := by
  by_cases h : ∃ word value, TagText s word value
  · obtain ⟨word, value, h⟩ := h
    have hp := fun cls => (tag_parse_text cls h).1
    have hb := (tag_parse_text .pre h).2
    obtain ⟨h1, h2⟩ := base_create word (textNumber value)
    have e1 : ∀ cls, Tag.create cls word (textNumber value) ≠ .error .parseTagError := by
      intro cls; unfold Tag.create; simp only; split <;> simp
    have e2 : BaseTag.create word (textNumber value) ≠ .error .parseTagError := by
      unfold BaseTag.create; simp only; split <;> simp
    simp only [hp, hb]
    refine ⟨h1, fun cls d t u ht hu => ?_, ⟨fun h => absurd h e2, fun h => absurd (h .pre) (e1 _)⟩, ⟨fun he cls => ?_, fun he => h2 fun t ht => ?_⟩⟩
    · obtain ⟨b, c⟩ := (((create_iff cls word _).1 t).1 ht).2
      obtain ⟨b', c'⟩ := (((create_iff d word _).1 u).1 hu).2
      have : t = u := Except.ok.inj (((h1 t).2 ⟨_, ht⟩).symm.trans ((h1 u).2 ⟨_, hu⟩))
      exact ⟨C92_disjoint _ _ t b (this ▸ b'), this⟩
    · refine (create_iff cls word _).2 fun t ht => ?_
      rw [(h1 t).2 ⟨_, ht⟩] at he
      cases he
    · obtain ⟨cls, hc⟩ := (h1 t).1 ht
      rw [he] at hc
      cases hc
  · have hp := fun cls => (parse_no_text cls h).1
    have hb := (parse_no_text .pre h).2
    have : Nonempty TagClass := ⟨.pre⟩
    simp [hp, hb]

example : BaseTag.parse "dev3".toList = .ok ⟨"dev".toList, 3⟩ ∧ Tag.parse .dev "dev3".toList = .ok ⟨"dev".toList, 3⟩ ∧
    BaseTag.parse "x3".toList = .error .valueError ∧ BaseTag.parse "3".toList = .error .parseTagError := by decide +kernel

/-- C92. On a tag of a class, the methods of `Tag` give what those of the class give: the phase never leaves the class. -/
theorem C92_methods (cls : TagClass) (t : Tag) (ht : t.Valid cls) (value : Int) :
    BaseTag.next t = t.next cls ∧ BaseTag.normalize t = t.normalize cls ∧ BaseTag.nextPhase t value = t.nextPhase cls value ∧
    BaseTag.setValue t value = t.setValue cls value ∧
    (∀ u, t.normalize cls = .ok u → u.Valid cls ∧ u.value = t.value) ∧
    (∀ u, t.nextPhase cls value = .ok (some u) → u.Valid cls ∧ u.value = value ∧ cls = .pre) := by
  have aux : ∀ cls : TagClass, ∀ p ∈ cls.phases.map String.toList,
      (Tag.convertPhase p = p ∧ p ∈ cls.phaseSet ∧ p ∈ BaseTag.phaseSet) ∧
      (∃ q ∈ cls.phases.map String.toList, Tag.convertPhase ((dictGet Phases.toNormal p).getD p) = q ∧ q ∈ cls.phaseSet ∧ q ∈ BaseTag.phaseSet) ∧
      (dictGet Phases.toNext p = none ∨ (cls = .pre ∧ ∃ q ∈ cls.phases.map String.toList,
        dictGet Phases.toNext p = some q ∧ Tag.convertPhase q = q ∧ q ∈ cls.phaseSet ∧ q ∈ BaseTag.phaseSet)) := by
    intro cls
    cases cls <;> decide +kernel
  obtain ⟨⟨a1, a2, a3⟩, ⟨q, hq, b1, b2, b3⟩, c⟩ := aux cls t.phase (valid_mem ht)
  have valid : ∀ q ∈ cls.phases.map String.toList, ∀ n, (⟨q, n⟩ : Tag).Valid cls := by
    intro q hq n
    obtain ⟨s, hs, e⟩ := List.mem_map.1 hq
    exact ⟨s, hs, e.symm⟩
  have hnorm : t.normalize cls = .ok ⟨q, t.value⟩ := by
    simp [Tag.normalize, Tag.setPhase, Tag.create, Tag.normal, b1, b2]
  refine ⟨?_, ?_, ?_, ?_, fun u hu => ?_, fun u hu => ?_⟩
  · simp [BaseTag.next, BaseTag.setValue, BaseTag.create, Tag.next, Tag.setValue, Tag.create, a1, a2, a3]
  · rw [hnorm]
    simp [BaseTag.normalize, BaseTag.setPhase, BaseTag.create, Tag.normal, b1, b3]
  · unfold BaseTag.nextPhase Tag.nextPhase
    rcases c with c | ⟨-, r, -, c1, c2, c3, c4⟩
    · rw [c]
    · rw [c1]
      simp [BaseTag.setPhase, BaseTag.setValue, BaseTag.create, Tag.setPhase, Tag.setValue, Tag.create, c2, c3, c4, bind, Except.bind]
  · simp [BaseTag.setValue, BaseTag.create, Tag.setValue, Tag.create, a1, a2, a3]
  · rw [hnorm] at hu
    cases hu
    exact ⟨valid q hq _, rfl⟩
  · unfold Tag.nextPhase at hu
    rcases c with c | ⟨rfl, r, hr, c1, c2, c3, c4⟩
    · rw [c] at hu
      cases hu
    · rw [c1] at hu
      simp [Tag.setPhase, Tag.setValue, Tag.create, c2, c3, bind, Except.bind] at hu
      cases hu
      exact ⟨valid r hr _, rfl, rfl⟩

example : BaseTag.next rcTag = .ok ⟨"rc".toList, 2⟩ ∧ BaseTag.nextPhase ⟨"beta".toList, 4⟩ = .ok (some ⟨"rc".toList, 0⟩) ∧
    BaseTag.nextPhase postTag = .ok none ∧ BaseTag.normalize ⟨"rev".toList, 1⟩ = .ok ⟨"post".toList, 1⟩ := by decide +kernel

/-- C92. The constructor of `Tag` accepts exactly the phases of the three classes; by default it makes an alpha tag. -/
theorem C92_create (phase : PyStr) (value : Int) :
    (∀ t, BaseTag.createOptional (some phase) value = .ok t ↔ ∃ cls, Tag.createOptional cls (some phase) value = .ok t) ∧
    ((∀ t, BaseTag.createOptional (some phase) value ≠ .ok t) → BaseTag.createOptional (some phase) value = .error .valueError) ∧
    BaseTag.createOptional none value = .ok ⟨"alpha".toList, value⟩ ∧
    BaseTag.createOptional none value = Tag.createOptional .pre none value := by
  refine ⟨(base_create phase value).1, (base_create phase value).2, ?_, ?_⟩
  · have : Tag.convertPhase BaseTag.defaultPhase = "alpha".toList ∧ "alpha".toList ∈ BaseTag.phaseSet := by decide +kernel
    show (if Tag.convertPhase BaseTag.defaultPhase ∈ BaseTag.phaseSet then (.ok ⟨_, value⟩ : Except PyErr Tag) else .error .valueError) = _
    rw [this.1, if_pos this.2]
  · have h1 : Tag.convertPhase BaseTag.defaultPhase ∈ BaseTag.phaseSet := by decide +kernel
    have h2 : Tag.convertPhase BaseTag.defaultPhase ∈ TagClass.pre.phaseSet := by decide +kernel
    have e1 : BaseTag.createOptional none value = .ok ⟨Tag.convertPhase BaseTag.defaultPhase, value⟩ := if_pos (e := .error .valueError) h1
    have e2 : Tag.createOptional .pre none value = .ok ⟨Tag.convertPhase BaseTag.defaultPhase, value⟩ := if_pos (e := .error .valueError) h2
    rw [e1, e2]

example : BaseTag.createOptional (some "r".toList) 2 = .ok ⟨"rev".toList, 2⟩ ∧ BaseTag.createOptional (some "R".toList) 2 = .error .valueError := by
  decide +kernel

/-- C92. Without a value, all constructors and `next_phase` give 0. -/
theorem C92_default_value (cls : TagClass) (t u : Tag) (phase : Option PyStr) (word : PyStr) :
    (BaseTag.createOptional phase = .ok u → u.value = 0) ∧ (BaseTag.create word = .ok u → u.value = 0) ∧
    (BaseTag.nextPhase t = .ok (some u) → u.value = 0) ∧
    (Tag.createOptional cls phase = .ok u → u.value = 0) ∧ (Tag.create cls word = .ok u → u.value = 0) ∧
    (t.nextPhase cls = .ok (some u) → u.value = 0) := by
  have base : ∀ w n u, BaseTag.create w n = .ok u → u.value = n := by
    intro w n u h
    unfold BaseTag.create at h
    dsimp only at h
    split at h
    · cases h
      rfl
    · cases h
  have tag : ∀ w n u, Tag.create cls w n = .ok u → u.value = n := by
    intro w n u h
    unfold Tag.create at h
    dsimp only at h
    split at h
    · cases h
      rfl
    · cases h
  refine ⟨fun h => ?_, base _ _ _, fun h => ?_, fun h => ?_, tag _ _ _, fun h => ?_⟩
  · cases phase with
    | none => exact base BaseTag.defaultPhase 0 u h
    | some w => exact base w 0 u h
  · unfold BaseTag.nextPhase at h
    split at h
    · cases h
    · rename_i q _
      cases h1 : BaseTag.setPhase t q with
      | error e => rw [h1] at h; cases h
      | ok x =>
        rw [h1] at h
        cases h2 : BaseTag.setValue x 0 with
        | error e =>
          have h : (BaseTag.setValue x 0).bind (fun y => .ok (some y)) = .ok (some u) := h
          rw [h2] at h
          cases h
        | ok y =>
          have h : (BaseTag.setValue x 0).bind (fun y => .ok (some y)) = .ok (some u) := h
          rw [h2] at h
          cases h
          exact base _ _ _ h2
  · cases phase <;> exact tag _ _ _ h
  · unfold Tag.nextPhase at h
    split at h
    · cases h
    · rename_i q _
      cases h1 : Tag.setPhase cls t q with
      | error e => rw [h1] at h; cases h
      | ok x =>
        rw [h1] at h
        have h : (Tag.setValue cls x 0).bind (fun y => .ok (some y)) = .ok (some u) := h
        cases h2 : Tag.setValue cls x 0 with
        | error e => rw [h2] at h; cases h
        | ok y =>
          rw [h2] at h
          cases h
          exact tag _ _ _ h2

example : BaseTag.createOptional none = .ok ⟨"alpha".toList, 0⟩ ∧ Tag.createOptional .post (some "r".toList) = .ok ⟨"rev".toList, 0⟩ ∧
    Tag.nextPhase .pre ⟨"alpha".toList, 7⟩ = .ok (some ⟨"beta".toList, 0⟩) := by decide +kernel

end Verif
