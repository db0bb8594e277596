import Verif.Proofs.ParserBy
import Verif.Props.SpecGrammar
/-!
# Specifier parsers over any version parser (C101)
-/

namespace Verif
open scoped Verif

/-- A version parser that also reads `X` as 0. -/
def lenient (s : PyStr) : Except PyErr Version := Version.parse (s.map (fun c => if c = 'X' then '0' else c))

/-- A version parser that drops local segments. -/
def publicOnly (s : PyStr) : Except PyErr Version := (Version.parse s).map (fun v => { v with local_ := none })

/-- C101. With the default version parser these are `parse_specifier` and `parse_version_set`. -/
theorem C101_default (s : PyStr) (lim : Nat) : Specifier.parseBy Version.parse s = Specifier.parse s ∧ VSet.parseBy Version.parse lim s = VSet.parse lim s :=
  ⟨rfl, rfl⟩

example : Specifier.parseBy Version.parse ">= 1".toList = .ok (.one ⟨.greaterOrEqual, exVersion [1]⟩) ∧
    VSet.parseBy Version.parse 5 ">= 1".toList = .ok (.item (exRange (some [1]) none)) := ⟨by rfl, by decide +kernel⟩

/-- C101. Whatever the version parser does, a string is read as a specifier iff, without its whitespace, it consists of lists of
operators: `|` or `||` between the lists, commas between the operators, and each version as the parser reads it. -/
theorem C101_grammar (P : VersionParser) (s : PyStr) (x : Specifier) :
    Specifier.parseBy P s = .ok x ↔ ∃ groups, AnyBy P (s.filter (fun c => !isSpace c)) groups ∧ x = Specifier.ofAny groups :=
  Specifier.parse_ok_by P s x

/-- The wildcard `X` is left to the version parser. The default one does not read it. -/
example : Specifier.parseBy lenient "1.X | ^2.3, != 2.4.*".toList = .ok (.any [.one ⟨.wildcardEqual, exVersion [1, 0]⟩,
      .all [.one ⟨.caret, exVersion [2, 3]⟩, .one ⟨.wildcardNotEqual, exVersion [2, 4, 0]⟩]]) ∧
    Specifier.parse "1.X | ^2.3, != 2.4.*".toList = .error .parseVersionError := ⟨by rfl, by rfl⟩

namespace Specifier

theorem parseBy_plain (P : VersionParser) {s : PyStr} (h1 : ',' ∉ s) (h2 : '|' ∉ s) :
    parseBy P s = parseSingleBy P (s.filter (fun c => !isSpace c)) := by
  unfold parseBy parseAnyBy
  rw [clearWhitespace_eq]
  have n1 : ',' ∉ s.filter (fun c => !isSpace c) := fun h => h1 (List.mem_of_mem_filter h)
  have n2 : '|' ∉ s.filter (fun c => !isSpace c) := fun h => h2 (List.mem_of_mem_filter h)
  generalize s.filter (fun c => !isSpace c) = t at n1 n2
  have e2 : splitPipes t = [t] := splitPipes_pipes [] _ (fun c hc e => n2 (e ▸ hc)) (by simp) (by simp)
  have e1 : splitComma t = [t] := splitAt_single _ _ (fun c hc => by simpa using fun h : c = ',' => n1 (h ▸ hc))
  rw [e2]
  simp only [mapAll, parseAllBy, e1]
  cases parseSingleBy P t <;> rfl

end Specifier

/-- C101. A string without commas and pipes that does not have the form of a specifier is not read, whatever the version parser
does: it is not asked. -/
theorem C101_form (P : VersionParser) (s : PyStr) (h1 : ',' ∉ s) (h2 : '|' ∉ s) (h : ¬ SingleForm (s.filter (fun c => !isSpace c))) :
    Specifier.parseBy P s = .error .parseSpecificationError := by
  rw [Specifier.parseBy_plain P h1 h2]
  exact Specifier.single_no_form_by P h

example : Specifier.parseBy (fun _ => .ok (exVersion [1])) "=> 1".toList = .error .parseSpecificationError ∧
    Specifier.parseBy (fun _ => .ok (exVersion [1])) "> 1+1".toList = .error .parseSpecificationError ∧
    Specifier.parseBy (fun _ => .ok (exVersion [1])) "> 2".toList = .ok (.one ⟨.greater, exVersion [1]⟩) := ⟨by rfl, by rfl, by rfl⟩

/-- What the parser of one operator does: nothing with the version parser, or one call. -/
theorem single_given (s : PyStr) : (¬ SingleForm s ∧ ∀ P, Specifier.parseSingleBy P s = .error .parseSpecificationError) ∨
    (SingleForm s ∧ ∃ t w, GivenText w ∧ ∀ P, Specifier.parseSingleBy P s = Specifier.makeOneBy P t w) := by
  rcases Specifier.single_by s with h | ⟨o, t, p, ho, hp, hl, rfl, h⟩ | ⟨o, t, p, ho, hp, rfl, h⟩ | ⟨o, t, p, c, ho, hp, hz, hc, rfl, h⟩ |
    ⟨o, t, p, ho, hp, hz, rfl, h⟩
  · exact .inl h
  · exact .inr ⟨.compare ho hp hl, t, p.text, ⟨p, hp, .inl rfl⟩, h⟩
  · exact .inr ⟨.equal ho hp, t, p.text, ⟨p, hp, .inl rfl⟩, h⟩
  · exact .inr ⟨.wildcard ho hp hz (hc.elim .inl (fun h => .inr (.inr h))), t, p.text, ⟨p, hp, .inl rfl⟩, h⟩
  · exact .inr ⟨.wildcard ho hp hz (.inr (.inl rfl)), t, p.wild 'X', ⟨p, hp, .inr ⟨hz, rfl⟩⟩, h⟩

/-- C101. One operator of the right form makes one call of the version parser, on a version string (possibly with `X` at the
end) that does not depend on the parser. The exceptions of the parser are the ones of the specifier parser. -/
theorem C101_call (s : PyStr) (h1 : ',' ∉ s) (h2 : '|' ∉ s) (h : SingleForm (s.filter (fun c => !isSpace c))) :
    ∃ t w, GivenText w ∧ ∀ P : VersionParser, (∀ e, P w = .error e → Specifier.parseBy P s = .error e) ∧
      ∀ v, P w = .ok v → (t = .tildeEqual ∧ v.lastIndex = 0 → Specifier.parseBy P s = .error .valueError) ∧
        (¬ (t = .tildeEqual ∧ v.lastIndex = 0) → Specifier.parseBy P s = .ok (.one ⟨t, v⟩)) := by
  rcases single_given (s.filter (fun c => !isSpace c)) with ⟨h', -⟩ | ⟨-, t, w, hw, hP⟩
  · exact absurd h h'
  · refine ⟨t, w, hw, fun P => ⟨fun e he => ?_, fun v hv => ⟨fun ht => ?_, fun ht => ?_⟩⟩⟩ <;>
      rw [Specifier.parseBy_plain P h1 h2, hP, Specifier.makeOneBy]
    · rw [he]; rfl
    · rw [hv]
      show Specifier.mkOne t v = _
      rw [Specifier.mkOne, Operator.create, if_pos ht]
      rfl
    · rw [hv]
      show Specifier.mkOne t v = _
      rw [Specifier.mkOne, Operator.create, if_neg ht]
      rfl

example : Specifier.parseBy (fun _ => .error .typeError) "^ 1".toList = .error .typeError ∧
    Specifier.parseBy (fun _ => .ok (exVersion [7])) "~= 1.0".toList = .error .valueError ∧
    Specifier.parseBy (fun _ => .ok (exVersion [7, 8])) "~= 1".toList = .ok (.one ⟨.tildeEqual, exVersion [7, 8]⟩) := ⟨by rfl, by rfl, by rfl⟩

/-- Equal functions on the members. -/
theorem mapAll_congr {α β : Type} {f g : α → Except PyErr β} {l : List α} (h : ∀ a ∈ l, f a = g a) : mapAll f l = mapAll g l := by
  induction l with
  | nil => rfl
  | cons a l ih => rw [mapAll, mapAll, h a (by simp), ih (fun x hx => h x (by simp [hx]))]

/-- C101. The version parser matters only on version strings, possibly with `X` at the end. -/
theorem C101_agree (P Q : VersionParser) (h : ∀ w, GivenText w → P w = Q w) (s : PyStr) (lim : Nat) :
    Specifier.parseBy P s = Specifier.parseBy Q s ∧ VSet.parseBy P lim s = VSet.parseBy Q lim s := by
  have single : ∀ w, Specifier.parseSingleBy P w = Specifier.parseSingleBy Q w := by
    intro w
    rcases single_given w with ⟨-, hP⟩ | ⟨-, t, u, hu, hP⟩
    · rw [hP, hP]
    · rw [hP, hP, Specifier.makeOneBy, Specifier.makeOneBy, h u hu]
  have all : ∀ w, Specifier.parseAllBy P w = Specifier.parseAllBy Q w := by
    intro w
    rw [Specifier.parseAllBy, Specifier.parseAllBy, mapAll_congr (fun a _ => single a)]
  have any : Specifier.parseBy P s = Specifier.parseBy Q s := by
    rw [Specifier.parseBy, Specifier.parseBy, Specifier.parseAnyBy, Specifier.parseAnyBy, mapAll_congr (fun a _ => all a)]
  exact ⟨any, by rw [VSet.parseBy, VSet.parseBy, any]⟩

/-- So a version parser that reads more than version strings changes nothing. -/
example : Specifier.parseBy (fun s => if s = "latest".toList then .ok (exVersion [9]) else Version.parse s) ">= latest".toList =
    .error .parseSpecificationError := by rfl

theorem mapVersionsList_eq (f : Version → Version) (l : List Specifier) : Specifier.mapVersionsList f l = l.map (Specifier.mapVersions f) := by
  induction l with
  | nil => rfl
  | cons s l ih => rw [Specifier.mapVersionsList, ih]; rfl

theorem mapAll_compose {α β γ : Type} {f : α → Except PyErr β} {g : α → Except PyErr γ} {F : β → γ} {l : List α} (h : ∀ a ∈ l, g a = (f a).map F) :
    mapAll g l = (mapAll f l).map (List.map F) := by
  induction l with
  | nil => rfl
  | cons a l ih =>
    rw [mapAll, mapAll, h a (by simp), ih (fun x hx => h x (by simp [hx]))]
    cases f a with
    | error e => rfl
    | ok b => cases mapAll f l <;> rfl

/-- C101. A version parser that only changes the versions of another one gives the same specifiers with changed versions, and the
same exceptions, if it leaves single release numbers single and others not. -/
theorem C101_map (Q : VersionParser) (f : Version → Version) (hf : ∀ v, (f v).lastIndex = 0 ↔ v.lastIndex = 0) (s : PyStr) :
    Specifier.parseBy (fun w => (Q w).map f) s = (Specifier.parseBy Q s).map (Specifier.mapVersions f) := by
  have single : ∀ w, Specifier.parseSingleBy (fun w => (Q w).map f) w = (Specifier.parseSingleBy Q w).map (Specifier.mapVersions f) := by
    intro w
    rcases single_given w with ⟨-, hP⟩ | ⟨-, t, u, -, hP⟩
    · rw [hP, hP]; rfl
    · rw [hP, hP, Specifier.makeOneBy, Specifier.makeOneBy]
      cases Q u with
      | error e => rfl
      | ok v =>
        show Specifier.mkOne t (f v) = (Specifier.mkOne t v).map _
        unfold Specifier.mkOne Operator.create
        by_cases h : t = .tildeEqual ∧ v.lastIndex = 0
        · rw [if_pos h, if_pos ⟨h.1, (hf v).2 h.2⟩]
          rfl
        · rw [if_neg h, if_neg (fun h' => h ⟨h'.1, (hf v).1 h'.2⟩)]
          rfl
  have list : ∀ l, (Specifier.allOf (l.map (Specifier.mapVersions f)) = (Specifier.allOf l).map (Specifier.mapVersions f)) ∧
      Specifier.anyOf (l.map (Specifier.mapVersions f)) = (Specifier.anyOf l).map (Specifier.mapVersions f) := by
    intro l
    match l with
    | [] => exact ⟨rfl, rfl⟩
    | [a] => exact ⟨rfl, rfl⟩
    | a :: b :: l =>
      have h := mapVersionsList_eq f (a :: b :: l)
      constructor
      · show Except.ok (Specifier.all _) = Except.ok (Specifier.all (Specifier.mapVersionsList f (a :: b :: l)))
        rw [h]
      · show Except.ok (Specifier.any _) = Except.ok (Specifier.any (Specifier.mapVersionsList f (a :: b :: l)))
        rw [h]
  have all : ∀ w, Specifier.parseAllBy (fun w => (Q w).map f) w = (Specifier.parseAllBy Q w).map (Specifier.mapVersions f) := by
    intro w
    rw [Specifier.parseAllBy, Specifier.parseAllBy, mapAll_compose (fun a _ => single a)]
    cases mapAll (Specifier.parseSingleBy Q) (splitComma w) with
    | error e => rfl
    | ok l => exact (list l).1
  rw [Specifier.parseBy, Specifier.parseBy, Specifier.parseAnyBy, Specifier.parseAnyBy, mapAll_compose (fun a _ => all a)]
  cases mapAll (Specifier.parseAllBy Q) (splitPipes (clearWhitespace s)) with
  | error e => rfl
  | ok l => exact (list l).2

example : Specifier.parseBy publicOnly "1+a | != 2+b".toList = .ok (.any [.one ⟨.equal, exVersion [1]⟩, .one ⟨.notEqual, exVersion [2]⟩]) := by rfl

end Verif
