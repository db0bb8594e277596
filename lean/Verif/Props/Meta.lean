import Verif.Model.Meta
import Verif.Props.Pep440
import Verif.Props.Order
import Verif.Props.SpecParsing
/-!
# C61, C62: the versions of Python and of the library
-/

namespace Verif

namespace SysVersion

/-- The values that `sys.version_info` can have: a release has the serial 0. -/
structure Ok (s : SysVersion) : Prop where
  major : 0 ≤ s.major
  minor : 0 ≤ s.minor
  micro : 0 ≤ s.micro
  level : s.releaselevel ∈ ["alpha".toList, "beta".toList, "candidate".toList, "final".toList]
  serial : 0 ≤ s.serial
  final : s.releaselevel = "final".toList → s.serial = 0

/-- `sys.version_info` as the tuple that it is. -/
def tuple (s : SysVersion) : Int × Int × Int × PyStr × Int := (s.major, s.minor, s.micro, s.releaselevel, s.serial)

/-- The suffix in `platform.python_version()`: nothing, or `a`, `b`, `rc` and the serial. -/
def suffix (s : SysVersion) : PyStr :=
  if s.releaselevel = "final".toList then []
  else (if s.releaselevel = "candidate".toList then "rc".toList else s.releaselevel.take 1) ++ intStr s.serial

end SysVersion

/-- The pre tag of the result. -/
def SysVersion.pre (s : SysVersion) : Option Tag :=
  if s.releaselevel = "final".toList then none
  else some ⟨if s.releaselevel = "candidate".toList then "rc".toList else s.releaselevel, s.serial⟩

theorem versionInfo_ok {s : SysVersion} (h : s.Ok) :
    s.versionInfo = .ok { release := ⟨[s.major, s.minor, s.micro]⟩, pre := s.pre } := by
  obtain ⟨a, b, c, l, n⟩ := s
  have hl := h.level
  simp only [List.mem_cons, List.not_mem_nil, or_false] at hl
  rcases hl with rfl | rfl | rfl | rfl <;> rfl

theorem versionInfo_canonical {s : SysVersion} (h : s.Ok) :
    ({ release := ⟨[s.major, s.minor, s.micro]⟩, pre := s.pre } : Version).Canonical ∧
    ({ release := ⟨[s.major, s.minor, s.micro]⟩, pre := s.pre } : Version).NormalPhases ∧
    ({ release := ⟨[s.major, s.minor, s.micro]⟩, pre := s.pre } : Version).LowerLocal := by
  have hp : ∀ t, s.pre = some t → t.phase ∈ ["alpha".toList, "beta".toList, "rc".toList] ∧ t.value = s.serial := by
    intro t ht
    have hl := h.level
    have aux : ∀ l ∈ ["alpha".toList, "beta".toList, "candidate".toList, "final".toList], l ≠ "final".toList →
        (if l = "candidate".toList then "rc".toList else l) ∈ ["alpha".toList, "beta".toList, "rc".toList] := by decide +kernel
    unfold SysVersion.pre at ht
    split at ht
    · cases ht
    · cases ht
      exact ⟨aux _ hl ‹_›, rfl⟩
  have aux : ∀ l ∈ ["alpha".toList, "beta".toList, "rc".toList], l ∈ TagClass.pre.phases.map String.toList := by decide +kernel
  refine ⟨⟨⟨by simp, fun t ht => valid_of_mem (aux _ (hp t ht).1), by simp, by simp, by simp⟩, le_refl (0 : Int), ?_, ?_, by simp, by simp, by simp⟩,
    ⟨fun t ht => (hp t ht).1, by simp, by simp⟩, by intro l hl; cases hl⟩
  · intro x hx
    simp only [List.mem_cons, List.not_mem_nil, or_false] at hx
    rcases hx with rfl | rfl | rfl
    · exact h.major
    · exact h.minor
    · exact h.micro
  · intro t ht
    rw [(hp t ht).2]; exact h.serial

/-- `python_version_info` never fails, and its PEP 440 string and its short string are the string of Python's own
version, such as `3.13.0rc2`. -/
theorem C61_string (s : SysVersion) (h : s.Ok) : ∃ v, s.versionInfo = .ok v ∧ v.toPep440Str = .ok v.toShortStr ∧
    v.toShortStr = intStr s.major ++ '.' :: intStr s.minor ++ '.' :: intStr s.micro ++ s.suffix := by
  obtain ⟨h1, h2, -⟩ := versionInfo_canonical h
  refine ⟨_, versionInfo_ok h, pep440_ok (C14_unchanged _ h1.valid h2.pre h2.post), ?_⟩
  rw [short_text]
  have aux : ∀ l ∈ ["alpha".toList, "beta".toList, "candidate".toList, "final".toList], l ≠ "final".toList →
      (dictGet Phases.toShort (if l = "candidate".toList then "rc".toList else l)).getD (if l = "candidate".toList then "rc".toList else l) =
      (if l = "candidate".toList then "rc".toList else l.take 1) := by decide +kernel
  have e : (Version.part [] Tag.toShortStr s.pre).flatten = s.suffix := by
    unfold SysVersion.pre SysVersion.suffix
    by_cases hf : s.releaselevel = "final".toList
    · simp [hf, Version.part]
    · rw [if_neg hf, if_neg hf, ← aux _ h.level hf]
      show [[], Tag.toShortStr _].flatten = _
      rw [tag_short]
      simp only [Tag.short, List.flatten_cons, List.flatten_nil, List.nil_append, List.append_nil]
  have e' : Release.toStr ⟨[s.major, s.minor, s.micro]⟩ = intStr s.major ++ '.' :: intStr s.minor ++ '.' :: intStr s.micro := by
    simp [Release.toStr, join_cons]
  show [] ++ Release.toStr _ ++ (Version.part [] Tag.toShortStr s.pre).flatten ++ [] ++ [] ++ [] = _
  rw [e, e']
  simp

example : ∃ v, (⟨3, 13, 0, "candidate".toList, 2⟩ : SysVersion).versionInfo = .ok v ∧ v.toPep440Str = .ok "3.13.0rc2".toList := by
  refine ⟨exVersion [3, 13, 0] (some ⟨"rc".toList, 2⟩), ?_⟩
  decide +kernel

theorem below_three (a b c x y z : Int) : (⟨[a, b, c]⟩ : Release).Below ⟨[x, y, z]⟩ ↔ a < x ∨ a = x ∧ (b < y ∨ b = y ∧ c < z) := by
  constructor
  · rintro ⟨i, h1, h2⟩
    match i with
    | 0 => exact Or.inl h2
    | 1 => exact Or.inr ⟨h1 0 (by omega), Or.inl h2⟩
    | 2 => exact Or.inr ⟨h1 0 (by omega), Or.inr ⟨h1 1 (by omega), h2⟩⟩
    | i + 3 => exact absurd h2 (lt_irrefl 0)
  · rintro (h | ⟨h, h' | ⟨h', h''⟩⟩)
    · exact ⟨0, by omega, h⟩
    · refine ⟨1, ?_, h'⟩
      intro j hj
      obtain rfl : j = 0 := by omega
      exact h
    · refine ⟨2, ?_, h''⟩
      intro j hj
      match j with
      | 0 => exact h
      | 1 => exact h'
      | j + 2 => omega

theorem same_three (a b c x y z : Int) : (∀ i, (⟨[a, b, c]⟩ : Release).part i = (⟨[x, y, z]⟩ : Release).part i) ↔ a = x ∧ b = y ∧ c = z := by
  constructor
  · intro h
    exact ⟨h 0, h 1, h 2⟩
  · rintro ⟨rfl, rfl, rfl⟩ i; rfl

/-- The place of a release level. -/
def levelPlace (l : PyStr) : Nat :=
  if l = "alpha".toList then 1 else if l = "beta".toList then 2 else if l = "candidate".toList then 5 else 6

theorem level_rank {s : SysVersion} (h : s.Ok) (r : Release) : ({ release := r, pre := s.pre } : Version).preRank = (levelPlace s.releaselevel, s.serial) := by
  have hf := h.final
  have hl := h.level
  simp only [List.mem_cons, List.not_mem_nil, or_false] at hl
  obtain ⟨a, b, c, l, n⟩ := s
  simp only at hl hf ⊢
  rcases hl with rfl | rfl | rfl | rfl
  · rfl
  · rfl
  · rfl
  · rw [hf rfl]; rfl

/-- The versions compare like the tuples. -/
theorem C61_order (s t : SysVersion) (hs : s.Ok) (ht : t.Ok) : ∃ v w, s.versionInfo = .ok v ∧ t.versionInfo = .ok w ∧
    (v <ₚ w ↔ PyCmp.lt s.tuple t.tuple = true) ∧ (v ==ₚ w ↔ s.tuple = t.tuple) := by
  obtain ⟨h1, h2, -⟩ := versionInfo_canonical hs
  obtain ⟨h3, h4, -⟩ := versionInfo_canonical ht
  have key := CmpKey.int.prod (CmpKey.int.prod (CmpKey.int.prod (CmpKey.str.prod CmpKey.int)))
  have levels : ∀ l ∈ ["alpha".toList, "beta".toList, "candidate".toList, "final".toList],
      ∀ m ∈ ["alpha".toList, "beta".toList, "candidate".toList, "final".toList],
      (strKey l < strKey m ↔ levelPlace l < levelPlace m) ∧ (strKey l = strKey m ↔ levelPlace l = levelPlace m) ∧
      (l = m ↔ levelPlace l = levelPlace m) := by decide +kernel
  obtain ⟨l1, l2, l3⟩ := levels _ hs.level _ ht.level
  refine ⟨_, _, versionInfo_ok hs, versionInfo_ok ht, ?_, ?_⟩
  · rw [C60_order _ _ h1.valid h3.valid h1.release h3.release, key.lt]
    unfold Version.Before
    rw [below_three, same_three, level_rank hs, level_rank ht]
    simp only [SysVersion.tuple, Prod.Lex.toLex_lt_toLex, l1, l2, id]
    have e : ¬ localBefore (none : Option Local) none := id
    have e1 : ¬ Rank.Below (0, 0) (0, 0) := by simp [Rank.Below]
    have e2 : ¬ Rank.Below (1, 0) (1, 0) := by simp [Rank.Below]
    simp only [Version.postRank, Version.devRank, e, e1, e2, and_false, or_false, lt_irrefl, false_or, true_and, Rank.Below]
    tauto
  · have := C02_eq_iff _ _ h1.valid h3.valid
    rw [this]
    simp only [same_three, SysVersion.tuple, Prod.mk.injEq]
    have e : s.pre = t.pre ↔ s.releaselevel = t.releaselevel ∧ s.serial = t.serial := by
      constructor
      · intro h
        have r1 := level_rank hs ⟨[]⟩
        have r2 := level_rank ht ⟨[]⟩
        rw [h, r2] at r1
        simp only [Prod.mk.injEq] at r1
        exact ⟨l3.2 r1.1.symm, r1.2.symm⟩
      · rintro ⟨h, h'⟩
        unfold SysVersion.pre
        rw [h, h']
    constructor
    · rintro ⟨-, ⟨a, b, c⟩, h, -⟩
      exact ⟨a, b, c, (e.1 h).1, (e.1 h).2⟩
    · rintro ⟨a, b, c, h⟩
      exact ⟨trivial, ⟨a, b, c⟩, e.2 h, trivial, trivial, trivial⟩

example : (⟨3, 13, 0, "candidate".toList, 2⟩ : SysVersion).Ok ∧ (⟨3, 13, 0, "final".toList, 0⟩ : SysVersion).Ok ∧
    PyCmp.lt (⟨3, 13, 0, "candidate".toList, 2⟩ : SysVersion).tuple (⟨3, 13, 0, "final".toList, 0⟩ : SysVersion).tuple = true :=
  ⟨⟨by decide, by decide, by decide, by decide +kernel, by decide, by decide +kernel⟩,
    ⟨by decide, by decide, by decide, by decide +kernel, by decide, by decide +kernel⟩, by decide +kernel⟩

/-- Other release levels are a ValueError unless they name a pre phase. -/
theorem C61_fails (s : SysVersion) (h : s.releaselevel ∉ "final".toList :: (preWords ++ ["candidate".toList])) :
    s.versionInfo = .error .valueError := by
  have h0 : s.releaselevel ≠ "final".toList := fun e => h (by rw [e]; exact List.mem_cons_self)
  have h1 : Tag.create .pre s.releaselevel s.serial = .error .valueError := by
    have aux : ∀ l ∈ Phases.preSet ++ Phases.shortToPhase.map (·.1), l ∉ "final".toList :: (preWords ++ ["candidate".toList]) →
        Tag.convertPhase l ∉ TagClass.pre.phaseSet := by decide +kernel
    have h2 : Tag.convertPhase s.releaselevel ∉ TagClass.pre.phaseSet := by
      by_cases hm : s.releaselevel ∈ Phases.preSet ++ Phases.shortToPhase.map (·.1)
      · exact aux _ hm h
      · have : Tag.convertPhase s.releaselevel = s.releaselevel := by
          unfold Tag.convertPhase
          rw [dictGet_none (fun v hv => hm (List.mem_append_right _ (List.mem_map.2 ⟨_, hv, rfl⟩)))]
          rfl
        rw [this]
        exact fun hp => hm (List.mem_append_left _ hp)
    simp only [Tag.create, h2, if_false]
  unfold SysVersion.versionInfo
  rw [if_neg h0, h1]
  rfl

example : (⟨3, 13, 0, "gamma".toList, 2⟩ : SysVersion).versionInfo = .error .valueError := by decide +kernel

/-- What the command prints with `--raw` is read back as the version: with `--normal` and without, for Python and for
the library. Without `--raw` the name comes first. -/
theorem C62_main (python normal : Bool) (s : SysVersion) (h : s.Ok) : ∃ v out, (if python then s.versionInfo else versionInfo) = .ok v ∧
    mainOutput true python normal s = .ok out ∧ Version.parse out = .ok v ∧
    mainOutput false python normal s = .ok ((if python then "python ".toList else "versions ".toList) ++ out) := by
  obtain ⟨h1, h2, -⟩ := versionInfo_canonical h
  cases python with
  | false =>
    refine ⟨exVersion [2, 1, 2], "2.1.2".toList, ?_, ?_, by decide +kernel, ?_⟩
    · rw [if_neg (by decide)]; decide +kernel
    · cases normal <;> rfl
    · cases normal <;> rfl
  | true =>
    have e := versionInfo_ok h
    have e2 := pep440_ok (C14_unchanged _ h1.valid h2.pre h2.post)
    have hc : ∀ t, s.pre = some t → t.phase ≠ "candidate".toList := by
      intro t ht
      have aux : ∀ l ∈ ["alpha".toList, "beta".toList, "rc".toList], l ≠ "candidate".toList := by decide +kernel
      exact aux _ (h2.pre t ht)
    cases normal with
    | false =>
      refine ⟨_, _, e, ?_, parse_long h1 hc, ?_⟩
      · simp [mainOutput, e, bind, Except.bind]
      · simp [mainOutput, e, bind, Except.bind]
    | true =>
      refine ⟨_, _, e, ?_, parse_short h1, ?_⟩
      · simp [mainOutput, e, e2, bind, Except.bind]
      · simp [mainOutput, e, e2, bind, Except.bind]

example : mainOutput false true true ⟨3, 13, 0, "beta".toList, 1⟩ = .ok "python 3.13.0b1".toList ∧
    mainOutput false false false ⟨3, 13, 0, "beta".toList, 1⟩ = .ok "versions 2.1.2".toList := by decide +kernel

/-- `get_version` is `parse_version` of the attribute, whatever the history of the cache. -/
theorem C62_get_version (hash : PyStr → Int) (item : Versioned) (calls : List PyStr) :
    (getVersion hash item (Cached.after (calls.map (parseVersion hash)))).1 = Version.parse item.version :=
  C47_version hash calls item.version

example : (getVersion (fun _ => 0) versionsModule (Cached.after (["2.1.3".toList, "2.1.2".toList].map (parseVersion (fun _ => 0))))).1 =
    .ok (exVersion [2, 1, 2]) := by decide +kernel

end Verif
