import Verif.Proofs.SpecGrammar
import Verif.Props.SpecParsing
import Verif.Props.Specifiers
/-!
# The grammar, the failures and the meaning of specifier strings (C50-C53)
-/

namespace Verif
open scoped Verif

/-! ## C50 -/

/-- C50. A string without commas and pipes is read as a specifier iff, without its whitespace, it is an operator. -/
theorem C50_single (s : PyStr) (h1 : ',' ∉ s) (h2 : '|' ∉ s) (x : Specifier) :
    Specifier.parse s = .ok x ↔ ∃ op, SingleOf (s.filter (fun c => !isSpace c)) op ∧ x = .one op := by
  rw [Specifier.parse_plainish h1 h2]
  exact Specifier.single_ok_iff _ _

example : Specifier.parse " >= 1.2 ".toList = .ok (.one ⟨.greaterOrEqual, exVersion [1, 2]⟩) ∧
    Specifier.parse "!= 1.2.*".toList = .ok (.one ⟨.wildcardNotEqual, exVersion [1, 2, 0]⟩) := ⟨by rfl, by rfl⟩

/-- C50. A string is read as a specifier iff, without its whitespace, it consists of lists of operators: `|` or `||` between
the lists, commas between the operators of a list; and then the specifier is any of the lists, each list all of its
operators. -/
theorem C50_grammar (s : PyStr) (x : Specifier) :
    Specifier.parse s = .ok x ↔ ∃ groups, AnyOf (s.filter (fun c => !isSpace c)) groups ∧ x = Specifier.ofAny groups := Specifier.parse_ok_iff' s x

example : Specifier.parse "^1, !=1.5|~2.3".toList =
    .ok (.any [.all [.one ⟨.caret, exVersion [1]⟩, .one ⟨.notEqual, exVersion [1, 5]⟩], .one ⟨.tilde, exVersion [2, 3]⟩]) := by rfl

/-- C50. Every spelling of the version can be used, and without a sign the operator is `=`. -/
theorem C50_default (p : Spelling) (hp : p.WF) (hg : p.Greedy) (v : Version) (h : p.Of v) :
    Specifier.parse p.text = .ok (.one ⟨.equal, v⟩) ∧ Specifier.parse ('=' :: p.text) = .ok (.one ⟨.equal, v⟩) ∧
      Specifier.parse ('=' :: '=' :: p.text) = .ok (.one ⟨.doubleEqual, v⟩) := by
  have key : ∀ {s : PyStr} {op : Operator}, SingleOf s op → Specifier.parse s = .ok (.one op) := by
    intro s op h
    rw [parse_plain h.form.plain]
    exact Specifier.single_of h
  exact ⟨key (.equal (o := []) (by decide) hp hg h), key (.equal (o := "=".toList) (by decide) hp hg h), key (.equal (o := "==".toList) (by decide) hp hg h)⟩

example : Specifier.parse "1.2".toList = .ok (.one ⟨.equal, exVersion [1, 2]⟩) ∧ Specifier.parse "=1.2".toList = .ok (.one ⟨.equal, exVersion [1, 2]⟩) ∧
    Specifier.parse "==1.2".toList = .ok (.one ⟨.doubleEqual, exVersion [1, 2]⟩) := ⟨by rfl, by rfl, by rfl⟩

/-- C50. The wildcards `x` and `*` mean the same: the wildcard operator on the version with 0 instead. -/
theorem C50_wildcards (p : Spelling) (hp : p.WF) (hg : p.Greedy) (hz : p.EndsInZero) (v : Version) (h : p.Of v) (c : Char) (hc : c = 'x' ∨ c = '*') :
    Specifier.parse (p.wild c) = .ok (.one ⟨.wildcardEqual, v⟩) ∧ Specifier.parse ("==".toList ++ p.wild c) = .ok (.one ⟨.wildcardDoubleEqual, v⟩) ∧
      Specifier.parse ("!=".toList ++ p.wild c) = .ok (.one ⟨.wildcardNotEqual, v⟩) := by
  have key : ∀ {s : PyStr} {op : Operator}, SingleOf s op → Specifier.parse s = .ok (.one op) := by
    intro s op h
    rw [parse_plain h.form.plain]
    exact Specifier.single_of h
  exact ⟨key (.wildcard (o := []) (by decide) hp hg hz hc h), key (.wildcard (by decide) hp hg hz hc h), key (.wildcard (by decide) hp hg hz hc h)⟩

example : Specifier.parse " >= v1-alpha.2, <2 | 1.x || !=1.2.post* ".toList = .ok (.any [.all [.one ⟨.greaterOrEqual, exVersion [1] (some ⟨"alpha".toList, 2⟩)⟩,
      .one ⟨.less, exVersion [2]⟩], .one ⟨.wildcardEqual, exVersion [1, 0]⟩, .one ⟨.wildcardNotEqual, exVersion [1, 2] (post := some ⟨"post".toList, 0⟩)⟩]) := by
  rfl
example : Specifier.parse "*".toList = .ok (.one ⟨.wildcardEqual, exVersion [0]⟩) ∧ Specifier.parse "x".toList = Specifier.parse "*".toList := ⟨by rfl, by rfl⟩

/-! ## C51 -/

/-- C51. `parse_specifier` fails with one of these errors, all `ValueError`s. -/
theorem C51_errors (s : PyStr) : (∃ x, Specifier.parse s = .ok x) ∨ Specifier.parse s = .error .parseSpecificationError ∨
    Specifier.parse s = .error .parseVersionError ∨ Specifier.parse s = .error .valueError := Specifier.parse_errors s

example : Specifier.parse ">".toList = .error .parseSpecificationError ∧ Specifier.parse "2.X".toList = .error .parseVersionError ∧
    Specifier.parse "~=2".toList = .error .valueError := ⟨by rfl, by rfl, by rfl⟩

/-- C51. With ParseSpecificationError on a string without commas and pipes iff it does not have the form of a specifier. -/
theorem C51_specification_error (s : PyStr) (h1 : ',' ∉ s) (h2 : '|' ∉ s) :
    Specifier.parse s = .error .parseSpecificationError ↔ ¬ SingleForm (s.filter (fun c => !isSpace c)) := by
  rw [Specifier.parse_plainish h1 h2]
  exact Specifier.single_spec_error _

example : ¬ SingleForm ">1.*".toList := (C51_specification_error ">1.*".toList (by decide) (by decide)).1 (by rfl)

/-- C51. With ParseVersionError iff the wildcard is the letter `X` (which the pattern allows). -/
theorem C51_version_error (s : PyStr) (h1 : ',' ∉ s) (h2 : '|' ∉ s) :
    Specifier.parse s = .error .parseVersionError ↔ UpperWildcard (s.filter (fun c => !isSpace c)) := by
  rw [Specifier.parse_plainish h1 h2]
  exact Specifier.single_version_error _

example : UpperWildcard "2.X".toList := (C51_version_error "2.X".toList (by decide) (by decide)).1 (by rfl)

/-- C51. With a plain ValueError iff a phase is not in lower case, or there is only one release number after `~=`. -/
theorem C51_value_error (s : PyStr) (h1 : ',' ∉ s) (h2 : '|' ∉ s) :
    Specifier.parse s = .error .valueError ↔ BadValue (s.filter (fun c => !isSpace c)) := by
  rw [Specifier.parse_plainish h1 h2]
  exact Specifier.single_value_error _

example : BadValue "~=2".toList ∧ BadValue ">=2RC1".toList :=
  ⟨(C51_value_error "~=2".toList (by decide) (by decide)).1 (by rfl), (C51_value_error ">=2RC1".toList (by decide) (by decide)).1 (by rfl)⟩

/-- C51. Several parts, joined by pipes, fail with the error of the first part that fails. -/
theorem C51_pipes (a : PyStr) (l : List (Bool × PyStr)) (ha : '|' ∉ a) (hl : ∀ x ∈ l, '|' ∉ x.2)
    (hb : ∀ x ∈ l.dropLast, ∃ c ∈ x.2, isSpace c = false) (e : PyErr) :
    Specifier.parse (pipes a l) = .error e ↔
      ∃ l1 w l2, a :: l.map (·.2) = l1 ++ w :: l2 ∧ (∀ y ∈ l1, ∃ x, Specifier.parse y = .ok x) ∧ Specifier.parse w = .error e := by
  rw [C43_parts a l ha hl hb, ← mapAll_error_iff]
  cases hm : mapAll Specifier.parse (a :: l.map (·.2)) with
  | error e' => simp [Except.bind]
  | ok xs =>
    obtain ⟨y, hy⟩ := Specifier.anyOf_ok xs
    simp [Except.bind, hy]

example : Specifier.parse "1 | ~=2 || 3.X".toList = .error .valueError ∧ Specifier.parse "1 | 3.X || ~=2".toList = .error .parseVersionError := ⟨by rfl, by rfl⟩

/-- C51. Several parts, joined by commas, are read one by one, and the whole is the conjunction. -/
theorem C51_comma_parts (a : PyStr) (l : List PyStr) (ha : ',' ∉ a ∧ '|' ∉ a) (hl : ∀ x ∈ l, ',' ∉ x ∧ '|' ∉ x) :
    Specifier.parse (a ++ (l.map (',' :: ·)).flatten) = (mapAll Specifier.parse (a :: l)).bind Specifier.allOf := Specifier.parse_commas ha hl

example : Specifier.parse ">=1,<2,!=1.5".toList =
    .ok (.all [.one ⟨.greaterOrEqual, exVersion [1]⟩, .one ⟨.less, exVersion [2]⟩, .one ⟨.notEqual, exVersion [1, 5]⟩]) := by rfl

/-- C51. They fail with the error of the first part that fails. -/
theorem C51_commas (a : PyStr) (l : List PyStr) (ha : ',' ∉ a ∧ '|' ∉ a) (hl : ∀ x ∈ l, ',' ∉ x ∧ '|' ∉ x) (e : PyErr) :
    Specifier.parse (a ++ (l.map (',' :: ·)).flatten) = .error e ↔
      ∃ l1 w l2, a :: l = l1 ++ w :: l2 ∧ (∀ y ∈ l1, ∃ x, Specifier.parse y = .ok x) ∧ Specifier.parse w = .error e := by
  rw [Specifier.parse_commas ha hl, ← mapAll_error_iff]
  cases hm : mapAll Specifier.parse (a :: l) with
  | error e' => simp [Except.bind]
  | ok xs =>
    obtain ⟨y, hy⟩ := Specifier.allOf_ok xs
    simp [Except.bind, hy]

example : Specifier.parse "".toList = .error .parseSpecificationError ∧ Specifier.parse ">= 1.0, ".toList = .error .parseSpecificationError ∧
    Specifier.parse "> 1.0+local".toList = .error .parseSpecificationError ∧ Specifier.parse "1.X".toList = .error .parseVersionError ∧
    Specifier.parse "~= 1".toList = .error .valueError ∧ Specifier.parse ">= 1.0A1".toList = .error .valueError ∧
    Specifier.parse "~= 1, 1.X, >".toList = .error .valueError ∧ Specifier.parse "1.X | ~= 1".toList = .error .parseVersionError :=
  ⟨by rfl, by rfl, by rfl, by rfl, by rfl, by rfl, by rfl, by rfl⟩

/-! ## C52 -/

/-- C52. Every specifier that `parse_specifier` returns is one that the constructors accept. -/
theorem C52_valid (s : PyStr) (x : Specifier) (h : Specifier.parse s = .ok x) : x.Valid := by
  obtain ⟨gs, hg, rfl⟩ := (Specifier.parse_ok_iff' s x).1 h
  exact Specifier.ofAny_valid hg

example : (Specifier.all [.one ⟨.tildeEqual, exVersion [1, 2]⟩, .one ⟨.less, exVersion [2]⟩]).Valid := C52_valid "~=1.2,<2".toList _ (by rfl)

/-- C52. It accepts a version iff all operators of one of the lists do (and accepting does not fail). -/
theorem C52_accepts (s : PyStr) (groups : List (List Operator)) (h : AnyOf (s.filter (fun c => !isSpace c)) groups) :
    ∃ x, Specifier.parse s = .ok x ∧ ∀ v : Version, ∃ b, x.accepts v = .ok b ∧ (b = true ↔ ∃ g ∈ groups, ∀ op ∈ g, op.accepts v = .ok true) :=
  ⟨_, (Specifier.parse_ok_iff' s _).2 ⟨groups, h, rfl⟩, fun v => Specifier.ofAny_accepts h v⟩

example : (Specifier.all [.one ⟨.tildeEqual, exVersion [1, 2]⟩, .one ⟨.notEqual, exVersion [1, 5]⟩]).accepts (exVersion [1, 6]) = .ok true ∧
    (Specifier.all [.one ⟨.tildeEqual, exVersion [1, 2]⟩, .one ⟨.notEqual, exVersion [1, 5]⟩]).accepts (exVersion [1, 5, 0]) = .ok false := by decide +kernel

/-- C52. So parts joined by pipes accept what one of the parts accepts, -/
theorem C52_pipes (a : PyStr) (l : List (Bool × PyStr)) (ha : '|' ∉ a) (hl : ∀ x ∈ l, '|' ∉ x.2)
    (hb : ∀ x ∈ l.dropLast, ∃ c ∈ x.2, isSpace c = false) (x : Specifier) (h : Specifier.parse (pipes a l) = .ok x) (v : Version) :
    x.accepts v = .ok true ↔ ∃ w ∈ a :: l.map (·.2), ∃ y, Specifier.parse w = .ok y ∧ y.accepts v = .ok true := by
  rw [C43_parts a l ha hl hb] at h
  cases hm : mapAll Specifier.parse (a :: l.map (·.2)) with
  | error e => rw [hm] at h; cases h
  | ok ys =>
    rw [hm] at h
    have h2 := (mapAll_ok_iff _ _ _).1 hm
    have hv : ∀ y ∈ ys, y.Valid := fun y hy => by
      obtain ⟨w, -, hw⟩ := forall₂_right h2 hy
      exact C52_valid w y hw
    obtain ⟨t, t1, -, t2⟩ := C35_any ys hv
    have h : Specifier.anyOf ys = .ok x := h
    rw [t1] at h
    cases h
    obtain ⟨b, b1, b2⟩ := t2 v
    have : x.accepts v = .ok true ↔ b = true := by rw [b1]; simp
    rw [this, b2]
    constructor
    · rintro ⟨y, hy, h⟩
      obtain ⟨w, hw, hp⟩ := forall₂_right h2 hy
      exact ⟨w, hw, y, hp, h⟩
    · rintro ⟨w, hw, y, hp, h⟩
      obtain ⟨z, hz, hz'⟩ := forall₂_left h2 hw
      rw [hp] at hz'
      cases hz'
      exact ⟨y, hz, h⟩

example : ((Specifier.parse "<1 || 3".toList).bind fun x => x.accepts (exVersion [3, 0])) = .ok true ∧
    ((Specifier.parse "<1 || 3".toList).bind fun x => x.accepts (exVersion [2])) = .ok false := ⟨by decide +kernel, by decide +kernel⟩

/-- C52. and parts joined by commas accept what all parts accept. -/
theorem C52_commas (a : PyStr) (l : List PyStr) (ha : ',' ∉ a ∧ '|' ∉ a) (hl : ∀ x ∈ l, ',' ∉ x ∧ '|' ∉ x) (x : Specifier)
    (h : Specifier.parse (a ++ (l.map (',' :: ·)).flatten) = .ok x) (v : Version) :
    x.accepts v = .ok true ↔ ∀ w ∈ a :: l, ∃ y, Specifier.parse w = .ok y ∧ y.accepts v = .ok true := by
  rw [Specifier.parse_commas ha hl] at h
  cases hm : mapAll Specifier.parse (a :: l) with
  | error e => rw [hm] at h; cases h
  | ok ys =>
    rw [hm] at h
    have h2 := (mapAll_ok_iff _ _ _).1 hm
    have hv : ∀ y ∈ ys, y.Valid := fun y hy => by
      obtain ⟨w, -, hw⟩ := forall₂_right h2 hy
      exact C52_valid w y hw
    obtain ⟨t, t1, -, t2⟩ := C35_all ys hv
    have h : Specifier.allOf ys = .ok x := h
    rw [t1] at h
    cases h
    obtain ⟨b, b1, b2⟩ := t2 v
    have : x.accepts v = .ok true ↔ b = true := by rw [b1]; simp
    rw [this, b2]
    constructor
    · intro h w hw
      obtain ⟨y, hy, hp⟩ := forall₂_left h2 hw
      exact ⟨y, hp, h y hy⟩
    · intro h y hy
      obtain ⟨w, hw, hp⟩ := forall₂_right h2 hy
      obtain ⟨z, hz, hz'⟩ := h w hw
      rw [hp] at hz
      cases hz
      exact hz'

example : ∃ x, Specifier.parse ">= 1.0, < 2 || 3.x".toList = .ok x ∧ x.accepts (exVersion [1, 5]) = .ok true ∧ x.accepts (exVersion [2]) = .ok false ∧
    x.accepts (exVersion [3, 7]) = .ok true := ⟨_, rfl, by decide +kernel, by decide +kernel, by decide +kernel⟩

/-! ## C53 -/

/-- C53. Whenever `parse_version_set` returns a set, `parse_specifier` returns a specifier which accepts exactly the versions
in the set, and the set is in normal form. -/
theorem C53_set (lim : Nat) (s : PyStr) (x : VSet) (h : VSet.parse lim s = .ok x) :
    x.Normal ∧ ∃ t, Specifier.parse s = .ok t ∧ ∀ v : Version, ∃ b, t.accepts v = .ok b ∧ (b = true ↔ x.Mem v) := by
  unfold VSet.parse at h
  cases hp : Specifier.parse s with
  | error e => rw [hp] at h; cases h
  | ok t =>
    rw [hp] at h
    obtain ⟨h1, h2⟩ := C32_conversion_exact t (C52_valid s t hp) lim x h
    exact ⟨h1, t, rfl, h2⟩

example : VSet.parse 5 "!=1.2".toList = .ok (.union [exRange none (some [1, 2]) false, exRange (some [1, 2]) none false]) ∧
    (Operator.mk .notEqual (exVersion [1, 2])).accepts (exVersion [1, 2, 0]) = .ok false := by decide +kernel

/-- C53. It fails where `parse_specifier` fails, with the same error. -/
theorem C53_error (lim : Nat) (s : PyStr) (e : PyErr) (h : Specifier.parse s = .error e) : VSet.parse lim s = .error e := by
  unfold VSet.parse
  rw [h]
  rfl

example : VSet.parse 5 "~=1".toList = .error .valueError := C53_error 5 _ _ (by rfl)

/-- C53. A string that is a single specifier is read as a set, unless its operator has no set (C16). -/
theorem C53_single (s : PyStr) (op : Operator) (h : SingleOf s op) :
    (¬ op.Broken → ∃ x, ∀ lim, VSet.parse lim s = .ok x) ∧ (op.Broken → ∀ lim, VSet.parse lim s = .error .valueError) := by
  have hs : ∀ lim, VSet.parse lim s = op.toSet lim := by
    intro lim
    unfold VSet.parse
    rw [parse_plain h.form.plain, Specifier.single_of h]
    show (Specifier.one op).toSet lim = _
    rw [Specifier.toSet]
  obtain ⟨h1, h2⟩ := Specifier.single_valid h
  have hv : op.Valid := ⟨h2.valid, h2.release, by cases h1 with | one _ ht => exact ht⟩
  refine ⟨fun hb => ?_, fun hb lim => ?_⟩
  · obtain ⟨x, hx⟩ := (C16_failure op hv 0).1 hb
    exact ⟨x, fun lim => by rw [hs, hx]⟩
  · rw [hs]
    exact (C16_failure op hv lim).2 hb

example : VSet.parse 5 "^1.2 | 3".toList = .ok (.union [exRange (some [1, 2]) (some [2, 0]), exPoint [3]]) ∧
    VSet.parse 5 "~1.0.post1.dev0".toList = .error .valueError := ⟨by decide +kernel, by decide +kernel⟩

end Verif
