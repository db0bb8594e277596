import Verif.Proofs.SpecGrammar
import Verif.Spec.Messages
/-!
# The messages of the exceptions
-/

namespace Verif
namespace Loud
open Re

/-! ### without the messages, the same -/

@[simp] theorem quiet_ok {α : Type} (a : α) : quiet (.ok a : Result α) = .ok a := rfl
@[simp] theorem quiet_error {α : Type} (r : Raised) : quiet (.error r : Result α) = .error r.err := rfl

@[simp] theorem quiet_bind {α β : Type} (x : Result α) (f : α → Result β) : quiet (x >>= f) = (quiet x >>= fun a => quiet (f a)) := by
  cases x <;> rfl

theorem ok_of_quiet {α : Type} {x : Result α} {a : α} (h : quiet x = .ok a) : x = .ok a := by
  cases x with
  | ok b => cases h; rfl
  | error r => cases h

theorem quiet_eq_ok {α : Type} {x : Result α} {a : α} : quiet x = .ok a ↔ x = .ok a := ⟨ok_of_quiet, fun h => by rw [h]; rfl⟩

theorem quiet_eq_error {α : Type} {x : Result α} {e : PyErr} : quiet x = .error e ↔ ∃ m, x = .error ⟨e, m⟩ := by
  cases x with
  | ok b => exact ⟨(fun h => by cases h), (fun ⟨_, h⟩ => by cases h)⟩
  | error r =>
    constructor
    · intro h
      cases h
      exact ⟨r.message, rfl⟩
    · rintro ⟨m, h⟩
      cases h
      rfl

@[simp] theorem quiet_mapError {α : Type} (x : Except PyErr α) (f : PyErr → PyStr) : quiet (x.mapError fun e => (⟨e, f e⟩ : Raised)) = x := by
  cases x <;> rfl

@[simp] theorem quiet_int (s : PyStr) : quiet (int s) = pyInt s := quiet_mapError _ _
@[simp] theorem quiet_operatorType (s : PyStr) : quiet (operatorType s) = OpType.ofValue s := quiet_mapError _ _

theorem int_digits {s : PyStr} (h : Digits s) : int s = .ok (number s : Int) := by
  unfold int
  rw [pyInt_digits h]
  rfl

theorem quiet_mapAll {α β : Type} (f : α → Result β) (g : α → Except PyErr β) (h : ∀ a, quiet (f a) = g a) (l : List α) :
    quiet (mapAll f l) = Verif.mapAll g l := by
  induction l with
  | nil => rfl
  | cons a l ih => simp only [mapAll, Verif.mapAll, quiet_bind, h, ih, quiet_ok]

theorem quiet_epoch (s : PyStr) : quiet (parseEpoch s) = Epoch.parse s := by simp [parseEpoch, Epoch.parse]

theorem quiet_createRelease (l : List Int) : quiet (createRelease l) = Release.create l := by
  unfold createRelease Release.create
  split <;> rfl

theorem quiet_release (s : PyStr) : quiet (parseRelease s) = Release.parse s := by
  simp only [parseRelease, Release.parse, quiet_bind, quiet_mapAll _ _ quiet_int, quiet_createRelease]

theorem quiet_localPart (s : PyStr) : quiet (parseLocalPart s) = LocalPart.parse s := by
  unfold parseLocalPart LocalPart.parse
  split
  · simp
  · rfl

theorem quiet_createLocal (l : List LocalPart) : quiet (createLocal l) = Local.create l := by
  unfold createLocal Local.create
  split <;> rfl

theorem quiet_local (s : PyStr) : quiet (parseLocal s) = Local.parse s := by
  simp only [parseLocal, Local.parse, quiet_bind, quiet_mapAll _ _ quiet_localPart, quiet_createLocal]

theorem quiet_createTag (cls : TagClass) (ph : PyStr) (n : Int) : quiet (createTag cls ph n) = Tag.create cls ph n := by
  unfold createTag Tag.create
  dsimp only
  split <;> rfl

theorem quiet_tag (cls : TagClass) (s : PyStr) : quiet (parseTag cls s) = Tag.parse cls s := by
  unfold parseTag Tag.parse
  cases Pattern.tag.fullmatch s with
  | none => rfl
  | some m =>
    dsimp only
    cases Re.get .phase m with
    | none => rfl
    | some ph =>
      dsimp only
      cases Re.get .value m with
      | none => exact quiet_createTag _ _ _
      | some v => simp only [quiet_bind, quiet_int, quiet_createTag]

theorem quiet_optionally {α : Type} (f : PyStr → Result α) (g : PyStr → Except PyErr α) (h : ∀ s, quiet (f s) = g s) (o : Option PyStr) :
    quiet (optionally f o) = Verif.optionally g o := by
  cases o with
  | none => rfl
  | some s => simp only [optionally, Verif.optionally, quiet_bind, h, quiet_ok]

theorem quiet_version (s : PyStr) : quiet (parseVersion s) = Version.parse s := by
  unfold parseVersion Version.parse
  cases Pattern.version.fullmatch s with
  | none => rfl
  | some m =>
    dsimp only
    have hi := quiet_optionally (fun s => do createTag .post (TagClass.defaultPhase .post) (← int s))
      (fun s => do Tag.defaultPhaseWithValue .post (← pyInt s)) (fun s => by simp only [quiet_bind, quiet_int, quiet_createTag]; rfl)
    cases Re.get .epoch m <;> cases Re.get .release m <;>
      simp only [quiet_bind, quiet_ok, quiet_epoch, quiet_release, quiet_optionally _ _ (quiet_tag .pre), hi] <;>
      repeat refine bind_congr fun _ => ?_
    all_goals
      rename_i i
      cases i <;> simp only [quiet_bind, quiet_ok, quiet_optionally _ _ (quiet_tag .post), quiet_optionally _ _ (quiet_tag .dev), quiet_optionally _ _ quiet_local]

theorem quiet_createOperator (t : OpType) (v : Version) : quiet (createOperator t v) = Operator.create t v := by
  unfold createOperator Operator.create
  split <;> rfl

theorem quiet_mkOne (t : OpType) (v : Version) : quiet (mkOne t v) = Specifier.mkOne t v := by
  simp only [mkOne, Specifier.mkOne, quiet_bind, quiet_createOperator, quiet_ok]

theorem quiet_tryParseWith (r : Re) (s : PyStr) : quiet (tryParseWith r s) = Specifier.tryParseWith r s := by
  unfold tryParseWith Specifier.tryParseWith
  cases r.fullmatch s with
  | none => rfl
  | some m =>
    dsimp only
    cases Re.get .operator m <;> cases Re.get .version m <;>
      simp only [quiet_bind, quiet_ok, quiet_error, quiet_operatorType, quiet_version, quiet_mkOne]

theorem quiet_tryParseEqual (s : PyStr) : quiet (tryParseEqual s) = Specifier.tryParseEqual s := by
  unfold tryParseEqual Specifier.tryParseEqual
  cases Pattern.equalSpecification.fullmatch s with
  | none => rfl
  | some m =>
    dsimp only
    cases Re.get .operator m <;> cases Re.get .version m <;>
      simp only [quiet_bind, quiet_ok, quiet_error, quiet_operatorType, quiet_version, quiet_mkOne]

theorem quiet_tryParseWildcard (s : PyStr) : quiet (tryParseWildcard s) = Specifier.tryParseWildcard s := by
  unfold tryParseWildcard Specifier.tryParseWildcard
  cases Pattern.wildcardSpecification.fullmatch s with
  | none => rfl
  | some m =>
    dsimp only
    cases Re.get .operator m <;> cases Re.get .version m <;>
      simp only [quiet_bind, quiet_ok, quiet_error, quiet_operatorType, quiet_version, quiet_mkOne]

theorem quiet_firstOf_cons {f : PyStr → Result (Option Specifier)} {fs : List (PyStr → Result (Option Specifier))}
    {g : PyStr → Except PyErr (Option Specifier)} {gs : List (PyStr → Except PyErr (Option Specifier))} {s : PyStr} (h : quiet (f s) = g s)
    (hs : quiet (firstOf fs s) = Specifier.firstOf gs s) : quiet (firstOf (f :: fs) s) = Specifier.firstOf (g :: gs) s := by
  simp only [firstOf, Specifier.firstOf, quiet_bind, h]
  congr 1
  funext o
  cases o with
  | none => exact hs
  | some x => rfl

theorem quiet_single (s : PyStr) : quiet (parseSingle s) = Specifier.parseSingle s :=
  quiet_firstOf_cons (quiet_tryParseWildcard s) (quiet_firstOf_cons (quiet_tryParseWith _ s) (quiet_firstOf_cons (quiet_tryParseEqual s)
    (quiet_firstOf_cons (quiet_tryParseWith _ s) (quiet_firstOf_cons (quiet_tryParseWith _ s) rfl))))

theorem quiet_checkSpecifiers (l : List Specifier) : quiet (checkSpecifiers l) = Specifier.checkSpecifiers l := by
  match l with
  | [] => rfl
  | [_] => rfl
  | _ :: _ :: _ => rfl

theorem quiet_anyOf (l : List Specifier) : quiet (anyOf l) = Specifier.anyOf l := by
  match l with
  | [] => rfl
  | [_] => rfl
  | _ :: _ :: _ => rfl

theorem quiet_allOf (l : List Specifier) : quiet (allOf l) = Specifier.allOf l := by
  match l with
  | [] => rfl
  | [_] => rfl
  | _ :: _ :: _ => rfl

theorem quiet_all (s : PyStr) : quiet (parseAll s) = Specifier.parseAll s := by
  simp only [parseAll, Specifier.parseAll, quiet_bind, quiet_mapAll _ _ quiet_single, quiet_allOf]

theorem quiet_any (s : PyStr) : quiet (parseAny s) = Specifier.parseAny s := by
  simp only [parseAny, Specifier.parseAny, quiet_bind, quiet_mapAll _ _ quiet_all, quiet_anyOf]

theorem quiet_specifier (s : PyStr) : quiet (parseSpecifier s) = Specifier.parse s := quiet_any _

/-! ### versions -/

theorem assoc_five (a b c d e : PyStr) : a ++ b ++ c ++ d ++ e = a ++ (b ++ (c ++ (d ++ e))) := by simp only [List.append_assoc]

theorem createTag_upper (cls : TagClass) {ph : PyStr} (n : Int) (h : ph.map foldCase ∈ wordsOf cls) (hw : ph ∉ wordsOf cls) :
    createTag cls ph n = .error ⟨.valueError, phaseNotAllowed ph (className cls)⟩ := by
  have no : ∀ l : List PyStr, (∀ x ∈ l, x.map foldCase = x) → ph ∉ l := by
    intro l hl hm
    exact hw (hl ph hm ▸ h)
  have f1 : ph ∉ Phases.shortToPhase.map (·.1) := no _ (by decide)
  have f2 : ph ∉ cls.phaseSet := no _ (by cases cls <;> decide)
  have : Tag.convertPhase ph = ph := by
    unfold Tag.convertPhase
    rw [dictGet_none]
    · rfl
    · intro v hv
      exact f1 (List.mem_map.2 ⟨_, hv, rfl⟩)
  unfold createTag
  dsimp only
  rw [this, if_neg f2]

theorem createTag_lower (cls : TagClass) {ph : PyStr} (n : Int) (h : ph.map foldCase ∈ wordsOf cls) (hw : ph ∈ wordsOf cls) :
    ∃ t, createTag cls ph n = .ok t := by
  rcases create_word cls ph n h with ⟨-, x, h1, -⟩ | ⟨h1, -⟩
  · exact ⟨_, ok_of_quiet ((quiet_createTag cls ph n).trans h1)⟩
  · exact absurd hw h1

theorem parseTag_body (cls : TagClass) {words : List PyStr} (hw : Lower words) {t : TagSpelling} (ht : t.WF words) :
    parseTag cls t.body = createTag cls t.phase t.num := by
  have hph : t.phase ≠ [] ∧ ∀ c ∈ t.phase, IsLetter c := by
    obtain ⟨h1, h2⟩ := hw _ ht.phase
    refine ⟨by rintro h; rw [h] at h1; exact h1 rfl, ?_⟩
    intro c hc
    have := h2 (foldCase c) (List.mem_map_of_mem hc)
    unfold IsLetter
    have key : ∀ x ∈ "abcdefghijklmnopqrstuvwxyz".toList, 'a' ≤ x ∧ x ≤ 'z' := by decide
    exact key _ this
  obtain ⟨s, ph, v⟩ := t
  obtain ⟨m, h1, h2, h3⟩ := fullmatch_tag ph v hph ht.value
  have e : (TagSpelling.mk s ph v).body = ph ++ (TagSpelling.mk [] ph v).valueText := rfl
  unfold parseTag
  rw [e, h1]
  simp only [h2, h3]
  cases v with
  | none => rfl
  | some x =>
    obtain ⟨-, hd⟩ := ht.value x.1 x.2 rfl
    simp only [Option.map_some, int_digits hd]
    rfl

theorem words_lower (cls : TagClass) : Lower (wordsOf cls) := by
  cases cls
  · exact preWords_lower
  · exact postWords_lower
  · exact devWords_lower

/-- An optional tag is read, or its phase is named. -/
theorem optionally_tag (cls : TagClass) (t : Option TagSpelling) (ht : ∀ x, t = some x → x.WF (wordsOf cls)) :
    ((∀ x, t = some x → x.phase ∈ wordsOf cls) ∧ ∃ y, optionally (parseTag cls) (t.map (·.body)) = .ok y) ∨
    (∃ x, t = some x ∧ x.phase ∉ wordsOf cls ∧
      optionally (parseTag cls) (t.map (·.body)) = .error ⟨.valueError, phaseNotAllowed x.phase (className cls)⟩) := by
  cases t with
  | none => exact .inl ⟨by simp, none, rfl⟩
  | some x =>
    have hx := ht x rfl
    simp only [Option.map_some, optionally, parseTag_body cls (words_lower cls) hx]
    by_cases h : x.phase ∈ wordsOf cls
    · obtain ⟨y, hy⟩ := createTag_lower cls x.num hx.phase h
      exact .inl ⟨(by rintro _ ⟨⟩; exact h), some y, by rw [hy]; rfl⟩
    · exact .inr ⟨x, rfl, h, by rw [createTag_upper cls x.num hx.phase h]; rfl⟩

theorem parse_upper {p : Spelling} (hp : p.WF) (gp : p.Greedy) {ph name : PyStr} (h : FirstUpper p ph name) :
    parseVersion p.text = .error ⟨.valueError, phaseText ph name⟩ := by
  obtain ⟨h1, h2, h3, h4, h5, h6⟩ := get_caps p
  unfold parseVersion
  rw [fullmatch_text hp gp]
  simp only [h1, h2, h3, h4, h5]
  have he : ∀ d, p.epoch = some d → parseEpoch d = .ok ⟨number d⟩ := by
    intro d he
    apply ok_of_quiet
    rw [quiet_epoch]
    simp only [Epoch.parse, pyInt_digits (hp.epoch d he)]
    rfl
  have hr := ok_of_quiet ((quiet_release _).trans (parse_release hp.major hp.release))
  have nosplit : ∀ {a b : PyStr}, phaseNotAllowed a b = phaseText a b := by
    intro a b
    exact assoc_five _ _ _ _ _
  cases hepo : p.epoch
  case' some d => simp only [he d hepo]
  all_goals
    simp only [hr, bind, Except.bind]
    rcases optionally_tag .pre p.pre hp.pre with ⟨g1, x, e1⟩ | ⟨x, g1, g2, e1⟩
    · simp only [e1]
      cases h with
      | pre k1 k2 => exact absurd (g1 _ k1) k2
      | @post t k1 k2 k3 =>
        rw [k2] at h6
        have ht : t.WF postWords := hp.post _ k2
        simp only [h6.1, h6.2, optionally, bind, Except.bind, parseTag_body .post postWords_lower ht, createTag_upper .post t.num ht.phase k3, nosplit]
        rfl
      | @dev t k1 k2 k3 k4 =>
        have hdev : optionally (parseTag .dev) (p.dev.map (·.body)) = .error ⟨.valueError, phaseText t.phase "DevTag".toList⟩ := by
          have ht := hp.dev _ k3
          rw [k3]
          simp only [Option.map_some, optionally, parseTag_body .dev devWords_lower ht, createTag_upper .dev t.num ht.phase k4, nosplit]
          rfl
        rw [hdev]
        cases hpost : p.post with
        | none =>
          rw [hpost] at h6
          simp only [h6.1, h6.2, optionally]
        | some po =>
          rw [hpost] at h6
          cases po with
          | implicit d =>
            simp only at h6
            have hd : Digits d := hp.post _ hpost
            obtain ⟨y, hy⟩ : ∃ y, createTag .post (TagClass.defaultPhase .post) (number d) = .ok y := ⟨_, rfl⟩
            simp only [h6, optionally, int_digits hd, bind, Except.bind, hy]
          | tag t' =>
            simp only at h6
            have ht : t'.WF postWords := hp.post _ hpost
            obtain ⟨y, hy⟩ := createTag_lower .post t'.num ht.phase (k2 _ hpost)
            simp only [h6.1, h6.2, optionally, bind, Except.bind, parseTag_body .post postWords_lower ht, hy]
    · simp only [e1]
      cases h with
      | pre k1 k2 => rw [g1] at k1; cases k1; rw [nosplit]; rfl
      | post k1 => exact absurd (k1 _ g1) g2
      | dev k1 => exact absurd (k1 _ g1) g2

theorem upper_of_not_lower {p : Spelling} (h : ¬ p.LowerCase) : ∃ ph name, FirstUpper p ph name := by
  by_cases h1 : ∀ t, p.pre = some t → t.phase ∈ preWords
  · by_cases h2 : ∀ t, p.post = some (.tag t) → t.phase ∈ postWords
    · by_cases h3 : ∀ t, p.dev = some t → t.phase ∈ devWords
      · exact absurd ⟨h1, h2, h3⟩ h
      · push Not at h3
        obtain ⟨t, h3, h4⟩ := h3
        exact ⟨_, _, .dev h1 h2 h3 h4⟩
    · push Not at h2
      obtain ⟨t, h3, h4⟩ := h2
      exact ⟨_, _, .post h1 h3 h4⟩
  · push Not at h1
    obtain ⟨t, h3, h4⟩ := h1
    exact ⟨_, _, .pre h3 h4⟩

theorem not_lower_of_upper {p : Spelling} {ph name : PyStr} (h : FirstUpper p ph name) : ¬ p.LowerCase := by
  intro hl
  cases h with
  | pre h1 h2 => exact h2 (hl.pre _ h1)
  | post _ h1 h2 => exact h2 (hl.post _ h1)
  | dev _ _ h1 h2 => exact h2 (hl.dev _ h1)

theorem parseText_eq (s w : PyStr) : canNotParse s w = parseText s w := assoc_five _ _ _ _ _

theorem parse_no_grammar {s : PyStr} (h : ¬ ∃ p : Spelling, p.WF ∧ s = p.text) : parseVersion s = .error ⟨.parseVersionError, parseText s "Version".toList⟩ := by
  unfold parseVersion
  cases hm : fullmatch Pattern.version s with
  | none => dsimp only; rw [parseText_eq]
  | some c =>
    obtain ⟨p, hp, gp, e, -⟩ := fullmatch_version hm
    exact absurd ⟨p, hp, e⟩ h

theorem version_raises (s : PyStr) (r : Raised) : parseVersion s = .error r ↔ VersionRaises s r := by
  constructor
  · intro h
    by_cases hs : ∃ p : Spelling, p.WF ∧ s = p.text
    · obtain ⟨p, hp, gp, rfl⟩ := spelling_greedy.1 hs
      by_cases hl : p.LowerCase
      · have h' := quiet_version p.text
        rw [h, parse_text hp gp] at h'
        rcases meaning_cases hp with ⟨-, v, e⟩ | ⟨hn, -⟩
        · rw [e] at h'; cases h'
        · exact absurd hl hn
      · obtain ⟨ph, name, hu⟩ := upper_of_not_lower hl
        rw [parse_upper hp gp hu] at h
        cases h
        exact .phase hp gp hu
    · rw [parse_no_grammar hs] at h
      cases h
      exact .grammar hs
  · intro h
    cases h with
    | grammar hs => exact parse_no_grammar hs
    | phase hp gp hu => exact parse_upper hp gp hu

/-! ### specifiers without commas and pipes -/

open Specifier (order_iff caret_iff tilde_iff equal_iff wildcard_iff fullmatch_lang fullmatch_none_of public_no_op version_no_op wildcard_no_op equals_op not_order
  not_wildcard not_equal not_caret wild_zero replace_public text_ne_wild)

/-- The version is read, and the specifier made. -/
def make (t : OpType) (w : PyStr) : Result (Option Specifier) := do
  let v ← parseVersion w
  .ok (some (← mkOne t v))

/-- The version is read, and the specifier made. -/
def makeOne (t : OpType) (w : PyStr) : Result Specifier := do mkOne t (← parseVersion w)

theorem tryParseWith_none {r : Re} {s : PyStr} (h : ¬ Lang r s) : tryParseWith r s = .ok none := by
  unfold tryParseWith
  rw [fullmatch_none_of h]

theorem tryParseWith_some {a b : Re} {o w : PyStr} {t : OpType} (ha : groups a = []) (hb : Grp.operator ∉ groups b)
    (hl : Lang (seqs [group .operator a, group .version b]) (o ++ w)) (ho : ∀ c ∈ o, IsOpChar c)
    (hao : ∀ o, Lang a o → ∀ c ∈ o, IsOpChar c) (hw : ∀ c r, w = c :: r → ¬ IsOpChar c)
    (hbw : ∀ w, Lang b w → ∀ c r, w = c :: r → ¬ IsOpChar c) (ht : operatorType o = .ok t) :
    tryParseWith (seqs [group .operator a, group .version b]) (o ++ w) = make t w := by
  obtain ⟨m, hm⟩ := fullmatch_lang.2 hl
  obtain ⟨o', w', e, h1, h2, h3, h4⟩ := get_pair ha hb (fullmatch_matches hm)
  obtain ⟨rfl, rfl⟩ := op_unique ho (hao _ h1) hw (hbw _ h2) e
  unfold tryParseWith make
  rw [hm]
  simp only [h3, h4, ht]
  rfl

theorem order_some {o : PyStr} {t : OpType} (ho : (o, t) ∈ [("<=".toList, OpType.lessOrEqual), (">=".toList, .greaterOrEqual), ("<".toList, .less), (">".toList, .greater)])
    {p : Spelling} (hp : p.WF) (hl : p.local_ = none) : tryParseWith Pattern.orderSpecification (o ++ p.text) = make t p.text := by
  have hops : ∀ e ∈ [("<=".toList, OpType.lessOrEqual), (">=".toList, .greaterOrEqual), ("<".toList, .less), (">".toList, .greater)],
      e.1 ∈ ["<=".toList, ">=".toList, "<".toList, ">".toList] ∧ (∀ c ∈ e.1, IsOpChar c) ∧ operatorType e.1 = .ok e.2 := by decide
  obtain ⟨h1, h2, h3⟩ := hops _ ho
  refine tryParseWith_some rfl (by decide) ((order_iff _).2 ⟨o, h1, p, hp, hl, rfl⟩) h2 ?_ (text_no_op hp) public_no_op h3
  intro o' ho'
  simp only [alts, lang_alt, lang_lits] at ho'
  rcases ho' with rfl | rfl | rfl | rfl <;> decide

theorem caret_some {p : Spelling} (hp : p.WF) (hl : p.local_ = none) : tryParseWith Pattern.caretSpecification ("^".toList ++ p.text) = make .caret p.text := by
  refine tryParseWith_some rfl (by decide) ((caret_iff _).2 ⟨p, hp, hl, rfl⟩) (by decide) ?_ (text_no_op hp) public_no_op (by decide)
  intro o' ho'
  rw [lang_lits] at ho'
  subst ho'
  decide

theorem tilde_some {o : PyStr} {t : OpType} (ho : (o, t) ∈ [("~=".toList, OpType.tildeEqual), ("~".toList, .tilde)])
    {p : Spelling} (hp : p.WF) (hl : p.local_ = none) : tryParseWith Pattern.tildeSpecification (o ++ p.text) = make t p.text := by
  have hops : ∀ e ∈ [("~=".toList, OpType.tildeEqual), ("~".toList, .tilde)],
      e.1 ∈ ["~=".toList, "~".toList] ∧ (∀ c ∈ e.1, IsOpChar c) ∧ operatorType e.1 = .ok e.2 := by decide
  obtain ⟨h1, h2, h3⟩ := hops _ ho
  refine tryParseWith_some rfl (by decide) ((tilde_iff _).2 ⟨o, h1, p, hp, hl, rfl⟩) h2 ?_ (text_no_op hp) public_no_op h3
  intro o' ho'
  simp only [alts, lang_alt, lang_lits] at ho'
  rcases ho' with rfl | rfl <;> decide

theorem equal_some {o : PyStr} {t : OpType} (ho : (o, t) ∈ equalWords) {p : Spelling} (hp : p.WF) :
    tryParseEqual (o ++ p.text) = make t p.text := by
  have hops : ∀ e ∈ equalWords, e.1 ∈ ["==".toList, "=".toList, "!=".toList, []] ∧ (∀ c ∈ e.1, IsOpChar c) ∧
      (e.1 = [] → e.2 = .equal) ∧ (e.1 ≠ [] → operatorType e.1 = .ok e.2) := by decide
  obtain ⟨h1, h2, h3, h4⟩ := hops _ ho
  dsimp only at h1 h2 h3 h4
  obtain ⟨m, hm⟩ := fullmatch_lang.2 ((equal_iff _).2 ⟨o, h1, p, hp, rfl⟩)
  obtain ⟨o', w', e, g1, g2, g3⟩ := get_optPair (a := alts [lits "==", lits "=", lits "!="]) rfl (by decide) (fullmatch_matches hm)
  unfold tryParseEqual make
  rw [hm]
  rcases g3 with ⟨g3, g4⟩ | ⟨rfl, g4⟩
  · obtain ⟨g5, g6⟩ := equals_op _ g3
    obtain ⟨rfl, rfl⟩ := op_unique h2 g6 (text_no_op hp) (version_no_op _ g1) e
    have : o ≠ [] := by
      rintro rfl
      exact absurd g5 (by decide)
    simp only [g2, g4, h4 this]
    rfl
  · obtain ⟨rfl, rfl⟩ := op_unique h2 (by simp) (text_no_op hp) (version_no_op _ g1) e
    have ht := h3 rfl
    subst ht
    simp only [g2, g4]
    rfl

theorem wildcard_some {o : PyStr} {t : OpType} (ho : (o, t) ∈ wildcardWords) {p : Spelling} (hp : p.WF) (hz : p.EndsInZero) {c : Char}
    (hc : IsWildcard c) : tryParseWildcard (o ++ p.wild c) = make t (replaceChar '*' '0' (replaceChar 'x' '*' (p.wild c))) := by
  have hops : ∀ e ∈ wildcardWords, e.1 ∈ ["==".toList, "=".toList, "!=".toList, []] ∧ (∀ c ∈ e.1, IsOpChar c) ∧
      (e.1 = [] → e.2 = .wildcardEqual) ∧ (e.1 ≠ [] → operatorType (e.1 ++ ['*']) = .ok e.2) := by decide
  obtain ⟨h1, h2, h3, h4⟩ := hops _ ho
  dsimp only at h1 h2 h3 h4
  obtain ⟨m, hm⟩ := fullmatch_lang.2 ((wildcard_iff _).2 ⟨o, h1, p, hp, hz, c, hc, rfl⟩)
  obtain ⟨o', w', e, g1, g2, g3⟩ := get_optPair (a := alts [lits "==", lits "=", lits "!="]) rfl (by decide) (fullmatch_matches hm)
  unfold tryParseWildcard make
  rw [hm]
  rcases g3 with ⟨g3, g4⟩ | ⟨rfl, g4⟩
  · obtain ⟨g5, g6⟩ := equals_op _ g3
    obtain ⟨rfl, rfl⟩ := op_unique h2 g6 (wild_no_op hp hc) (wildcard_no_op _ g1) e
    have : o ≠ [] := by
      rintro rfl
      exact absurd g5 (by decide)
    simp only [g2, g4, h4 this]
    rfl
  · obtain ⟨rfl, rfl⟩ := op_unique h2 (by simp) (wild_no_op hp hc) (wildcard_no_op _ g1) e
    have ht := h3 rfl
    subst ht
    simp only [g2, g4]
    generalize parseVersion _ = z
    cases z <;> rfl


theorem wildcard_none {s : PyStr} (h : ¬ Lang Pattern.wildcardSpecification s) : tryParseWildcard s = .ok none := by
  unfold tryParseWildcard
  rw [fullmatch_none_of h]

theorem equal_none {s : PyStr} (h : ¬ Lang Pattern.equalSpecification s) : tryParseEqual s = .ok none := by
  unfold tryParseEqual
  rw [fullmatch_none_of h]

theorem firstOf_none {f : PyStr → Result (Option Specifier)} {fs : List (PyStr → Result (Option Specifier))} {s : PyStr}
    (h : f s = .ok none) : firstOf (f :: fs) s = firstOf fs s := by
  rw [firstOf, h]
  rfl

theorem firstOf_make {f : PyStr → Result (Option Specifier)} {fs : List (PyStr → Result (Option Specifier))} {s w : PyStr} {t : OpType}
    (h : f s = make t w) : firstOf (f :: fs) s = makeOne t w := by
  rw [firstOf, h]
  unfold make makeOne
  cases parseVersion w with
  | error e => rfl
  | ok v =>
    have : (do let v ← (.ok v : Result Version); mkOne t v) = mkOne t v := rfl
    rw [this]
    have : (do let v ← (.ok v : Result Version); .ok (some (← mkOne t v)) : Result (Option Specifier)) = (do .ok (some (← mkOne t v))) := rfl
    rw [this]
    cases mkOne t v <;> rfl

theorem single_compare {o : PyStr} {t : OpType} (ho : (o, t) ∈ compareWords) {p : Spelling} (hp : p.WF) (hl : p.local_ = none) :
    parseSingle (o ++ p.text) = makeOne t p.text := by
  have hops : ∀ e ∈ compareWords, ∀ c ∈ e.1, IsOpChar c := by decide
  have h0 : ∀ c ∈ o, IsOpChar c := hops _ ho
  unfold parseSingle
  rw [firstOf_none (wildcard_none (not_wildcard h0 hp))]
  have hcases : ∀ e ∈ compareWords, e ∈ [("<=".toList, OpType.lessOrEqual), (">=".toList, .greaterOrEqual), ("<".toList, .less), (">".toList, .greater)] ∨
      (e.1 ∉ ["<=".toList, ">=".toList, "<".toList, ">".toList] ∧ e.1 ∉ ["==".toList, "=".toList, "!=".toList, []] ∧
        (e = ("^".toList, .caret) ∨ (e.1 ≠ "^".toList ∧ e ∈ [("~=".toList, OpType.tildeEqual), ("~".toList, .tilde)]))) := by decide
  rcases hcases _ ho with h | ⟨h1, h2, h | ⟨h3, h4⟩⟩
  · exact firstOf_make (order_some h hp hl)
  · rw [firstOf_none (f := tryParseWith Pattern.orderSpecification) (tryParseWith_none (not_order h0 h1 hp)), firstOf_none (equal_none (not_equal h0 h2 hp))]
    cases h
    exact firstOf_make (caret_some hp hl)
  · rw [firstOf_none (f := tryParseWith Pattern.orderSpecification) (tryParseWith_none (not_order h0 h1 hp)), firstOf_none (equal_none (not_equal h0 h2 hp)),
      firstOf_none (f := tryParseWith Pattern.caretSpecification) (tryParseWith_none (not_caret h0 h3 hp))]
    exact firstOf_make (tilde_some h4 hp hl)

theorem single_equal {o : PyStr} {t : OpType} (ho : (o, t) ∈ equalWords) {p : Spelling} (hp : p.WF) : parseSingle (o ++ p.text) = makeOne t p.text := by
  have hops : ∀ e ∈ equalWords, (∀ c ∈ e.1, IsOpChar c) ∧ e.1 ∉ ["<=".toList, ">=".toList, "<".toList, ">".toList] := by decide
  obtain ⟨h0, h1⟩ := hops _ ho
  unfold parseSingle
  rw [firstOf_none (wildcard_none (not_wildcard h0 hp)), firstOf_none (f := tryParseWith Pattern.orderSpecification) (tryParseWith_none (not_order h0 h1 hp))]
  exact firstOf_make (equal_some ho hp)


theorem single_wildcard {o : PyStr} {t : OpType} (ho : (o, t) ∈ wildcardWords) {p : Spelling} (hp : p.WF) (hz : p.EndsInZero) {c : Char}
    (hc : c = 'x' ∨ c = '*') : parseSingle (o ++ p.wild c) = makeOne t p.text := by
  unfold parseSingle
  have hc' : IsWildcard c := hc.elim .inl (fun h => .inr (.inr h))
  have h := wildcard_some ho hp hz hc'
  rw [replace_public hp hz.1, if_pos hc, wild_zero hz] at h
  exact firstOf_make h

theorem single_upper {o : PyStr} {t : OpType} (ho : (o, t) ∈ wildcardWords) {p : Spelling} (hp : p.WF) (hz : p.EndsInZero) :
    parseSingle (o ++ p.wild 'X') = .error ⟨.parseVersionError, parseText (p.wild 'X') "Version".toList⟩ := by
  unfold parseSingle
  have h := wildcard_some ho hp hz (c := 'X') (.inr (.inl rfl))
  rw [replace_public hp hz.1, if_neg (by decide)] at h
  rw [firstOf_make h]
  unfold makeOne
  rw [parse_no_grammar]
  · rfl
  · rintro ⟨q, hq, e⟩
    exact text_ne_wild hq hp hz (.inr (.inl rfl)) e.symm

theorem single_no_form {s : PyStr} (h : ¬ SingleForm s) : parseSingle s = .error ⟨.parseSpecificationError, parseText s "specification".toList⟩ := by
  have names : ∀ (l : List (PyStr × OpType)) (o : PyStr), o ∈ l.map (·.1) → ∃ t, (o, t) ∈ l := by
    intro l o h
    obtain ⟨x, hx, rfl⟩ := List.mem_map.1 h
    exact ⟨x.2, hx⟩
  have cmp : ∀ o ∈ ["<=".toList, ">=".toList, "<".toList, ">".toList, "^".toList, "~=".toList, "~".toList], o ∈ compareWords.map (·.1) := by decide
  have eqs : ∀ o ∈ ["==".toList, "=".toList, "!=".toList, []], o ∈ equalWords.map (·.1) ∧ o ∈ wildcardWords.map (·.1) := by decide
  have h1 : ¬ Lang Pattern.wildcardSpecification s := by
    intro h1
    obtain ⟨o, ho, p, hp, hz, c, hc, rfl⟩ := (wildcard_iff s).1 h1
    obtain ⟨t, ht⟩ := names _ o (eqs o ho).2
    exact h (.wildcard ht hp hz hc)
  have h2 : ¬ Lang Pattern.orderSpecification s := by
    intro h2
    obtain ⟨o, ho, p, hp, hl, rfl⟩ := (order_iff s).1 h2
    obtain ⟨t, ht⟩ := names _ o (cmp o (by simp only [List.mem_cons, List.not_mem_nil, or_false] at ho ⊢; rcases ho with h | h | h | h <;> simp [h]))
    exact h (.compare ht hp hl)
  have h3 : ¬ Lang Pattern.equalSpecification s := by
    intro h3
    obtain ⟨o, ho, p, hp, rfl⟩ := (equal_iff s).1 h3
    obtain ⟨t, ht⟩ := names _ o (eqs o ho).1
    exact h (.equal ht hp)
  have h4 : ¬ Lang Pattern.caretSpecification s := by
    intro h4
    obtain ⟨p, hp, hl, rfl⟩ := (caret_iff s).1 h4
    obtain ⟨t, ht⟩ := names _ "^".toList (cmp _ (by decide))
    exact h (.compare ht hp hl)
  have h5 : ¬ Lang Pattern.tildeSpecification s := by
    intro h5
    obtain ⟨o, ho, p, hp, hl, rfl⟩ := (tilde_iff s).1 h5
    obtain ⟨t, ht⟩ := names _ o (cmp o (by simp only [List.mem_cons, List.not_mem_nil, or_false] at ho ⊢; rcases ho with h | h <;> simp [h]))
    exact h (.compare ht hp hl)
  unfold parseSingle
  rw [firstOf_none (wildcard_none h1), firstOf_none (f := tryParseWith Pattern.orderSpecification) (tryParseWith_none h2),
    firstOf_none (equal_none h3), firstOf_none (f := tryParseWith Pattern.caretSpecification) (tryParseWith_none h4),
    firstOf_none (f := tryParseWith Pattern.tildeSpecification) (tryParseWith_none h5), firstOf, parseText_eq]

theorem makeOne_upper {t : OpType} {p : Spelling} (hp : p.WF) (hg : p.Greedy) {ph name : PyStr} (h : FirstUpper p ph name) :
    makeOne t p.text = .error ⟨.valueError, phaseText ph name⟩ := by
  unfold makeOne
  rw [parse_upper hp hg h]
  rfl

theorem makeOne_tilde {p : Spelling} (hp : p.WF) (hg : p.Greedy) (hl : p.LowerCase) (hr : p.release = []) :
    makeOne .tildeEqual p.text = .error ⟨.valueError, canNotUseTildeEqual⟩ := by
  rcases Specifier.makeOne_lower (t := .tildeEqual) hp hg with ⟨v, h⟩ | h
  · have h1 : parseVersion p.text = .ok v := ok_of_quiet ((quiet_version _).trans ((parse_ok_iff _ _).2 ⟨p, hp, hg, rfl, h⟩))
    unfold makeOne
    rw [h1]
    show (do Except.ok (Specifier.one (← createOperator .tildeEqual v)) : Result Specifier) = _
    unfold createOperator
    rw [if_pos ⟨rfl, (Specifier.lastIndex_of h).2 hr⟩]
    rfl
  · exact absurd hl h

/-- Every string that fails is of one of these kinds. -/
theorem single_raises (s : PyStr) (r : Raised) : parseSingle s = .error r ↔ SingleRaises s r := by
  have of : ∀ r, SingleRaises s r → parseSingle s = .error r := by
    intro r h
    cases h with
    | form h => exact single_no_form h
    | upper ho hp hz => exact single_upper ho hp hz
    | compare ho hp hg hl hu => rw [single_compare ho hp hl, makeOne_upper hp hg hu]
    | equal ho hp hg hu => rw [single_equal ho hp, makeOne_upper hp hg hu]
    | wildcard ho hp hg hz hc hu => rw [single_wildcard ho hp hz hc, makeOne_upper hp hg hu]
    | tilde hp hg hl hw hr =>
      rw [single_compare (t := .tildeEqual) (by decide) hp hl, makeOne_tilde hp hg hw hr]
      rfl
  refine ⟨fun h => ?_, of r⟩
  have key : ∃ r', SingleRaises s r' := by
    rcases Specifier.single_four s with ⟨-, ⟨op, ho⟩ | hb | hu⟩ | ⟨hf, -⟩
    · have := quiet_single s
      rw [h, Specifier.single_of ho] at this
      cases this
    · cases hb with
      | @compare o t p ho hp hg hl hv =>
        by_cases hw : p.LowerCase
        · rcases hv with hv | ⟨ht, hv⟩
          · exact absurd hw hv
          · subst ht
            have : ∀ e ∈ compareWords, e.2 = .tildeEqual → e.1 = "~=".toList := by decide
            have e := this _ ho rfl
            dsimp only at e
            subst e
            exact ⟨_, .tilde hp hg hl hw hv⟩
        · obtain ⟨ph, name, hu⟩ := upper_of_not_lower hw
          exact ⟨_, .compare ho hp hg hl hu⟩
      | equal ho hp hg hv =>
        obtain ⟨ph, name, hu⟩ := upper_of_not_lower hv
        exact ⟨_, .equal ho hp hg hu⟩
      | wildcard ho hp hg hz hc hv =>
        obtain ⟨ph, name, hu⟩ := upper_of_not_lower hv
        exact ⟨_, .wildcard ho hp hg hz hc hu⟩
    · obtain ⟨o, t, p, ho, hp, hz, rfl⟩ := hu
      exact ⟨_, .upper ho hp hz⟩
    · exact ⟨_, .form hf⟩
  obtain ⟨r', h'⟩ := key
  have := of r' h'
  rw [h] at this
  cases this
  exact h'

/-! ### lists of parts -/

theorem mapAll_error_iff {α β : Type} (f : α → Result β) (e : Raised) : ∀ (l : List α),
    mapAll f l = .error e ↔ ∃ l1 a l2, l = l1 ++ a :: l2 ∧ (∀ x ∈ l1, ∃ y, f x = .ok y) ∧ f a = .error e := by
  intro l
  induction l with
  | nil => simp [mapAll]
  | cons a l ih =>
    rw [mapAll]
    cases ha : f a with
    | error e' =>
      constructor
      · intro h
        cases h
        exact ⟨[], a, l, rfl, by simp, ha⟩
      · rintro ⟨l1, x, l2, h1, h2, h3⟩
        cases l1 with
        | nil => cases h1; rw [ha] at h3; cases h3; rfl
        | cons y l1 =>
          cases h1
          obtain ⟨z, hz⟩ := h2 a (by simp)
          rw [ha] at hz; cases hz
    | ok b =>
      have : (do let b ← (.ok b : Result β); let bs ← mapAll f l; .ok (b :: bs)) = .error e ↔ mapAll f l = .error e := by
        cases hl : mapAll f l with
        | error e' => exact ⟨fun h => (by cases h; rfl), fun h => (by cases h; rfl)⟩
        | ok bs => exact ⟨fun h => (by cases h), fun h => (by cases h)⟩
      rw [this, ih]
      constructor
      · rintro ⟨l1, x, l2, rfl, h2, h3⟩
        refine ⟨a :: l1, x, l2, rfl, ?_, h3⟩
        intro y hy
        rcases List.mem_cons.1 hy with rfl | hy
        · exact ⟨b, ha⟩
        · exact h2 y hy
      · rintro ⟨l1, x, l2, h1, h2, h3⟩
        cases l1 with
        | nil => cases h1; rw [ha] at h3; cases h3
        | cons y l1 =>
          cases h1
          exact ⟨l1, x, l2, rfl, fun z hz => h2 z (by simp [hz]), h3⟩

theorem anyOf_ok (xs : List Specifier) : ∃ y, anyOf xs = .ok y := by
  obtain ⟨y, h⟩ := Specifier.anyOf_ok xs
  exact ⟨y, ok_of_quiet ((quiet_anyOf xs).trans h)⟩

theorem allOf_ok (xs : List Specifier) : ∃ y, allOf xs = .ok y := by
  obtain ⟨y, h⟩ := Specifier.allOf_ok xs
  exact ⟨y, ok_of_quiet ((quiet_allOf xs).trans h)⟩

theorem parse_no_pipe {s : PyStr} (h : '|' ∉ s) : parseSpecifier s = parseAll (clearWhitespace s) := by
  unfold parseSpecifier parseAny
  have : splitPipes (clearWhitespace s) = [clearWhitespace s] :=
    splitPipes_pipes [] _ (fun c hc e => Specifier.clear_no h (e ▸ hc)) (by simp) (by simp)
  rw [this]
  simp only [mapAll]
  cases parseAll (clearWhitespace s) <;> rfl

theorem all_no_comma {s : PyStr} (h : ',' ∉ s) : parseAll s = parseSingle s := by
  unfold parseAll
  have := splitComma_parts s [] h (by simp)
  simp only [List.map_nil, List.flatten_nil, List.append_nil] at this
  rw [this]
  simp only [mapAll]
  cases parseSingle s <;> rfl

theorem parse_plainish {s : PyStr} (h1 : ',' ∉ s) (h2 : '|' ∉ s) : parseSpecifier s = parseSingle (s.filter (fun c => !isSpace c)) := by
  rw [parse_no_pipe h2, all_no_comma (Specifier.clear_no h1), clearWhitespace_eq]

theorem parse_commas {a : PyStr} {l : List PyStr} (ha : ',' ∉ a ∧ '|' ∉ a) (hl : ∀ x ∈ l, ',' ∉ x ∧ '|' ∉ x) :
    parseSpecifier (a ++ (l.map (',' :: ·)).flatten) = (mapAll parseSpecifier (a :: l)).bind allOf := by
  have hno : '|' ∉ a ++ (l.map (',' :: ·)).flatten := by
    intro h
    rcases List.mem_append.1 h with h | h
    · exact ha.2 h
    · obtain ⟨w, hw, hc⟩ := List.mem_flatten.1 h
      obtain ⟨x, hx, rfl⟩ := List.mem_map.1 hw
      rcases List.mem_cons.1 hc with hc | hc
      · revert hc; decide
      · exact (hl x hx).2 hc
  have hm : ∀ l : List PyStr, (∀ x ∈ l, ',' ∉ x ∧ '|' ∉ x) → mapAll parseSpecifier l = mapAll parseSingle (l.map clearWhitespace) := by
    intro l hl
    induction l with
    | nil => rfl
    | cons a l ih =>
      have h := hl a (by simp)
      rw [List.map_cons, mapAll, mapAll, parse_plainish h.1 h.2, ih (fun x hx => hl x (by simp [hx])), clearWhitespace_eq]
  rw [parse_no_pipe hno, clear_append, Specifier.clear_commas]
  unfold parseAll
  rw [splitComma_parts _ _ (Specifier.clear_no ha.1), hm (a :: l)]
  · rfl
  · intro x hx
    rcases List.mem_cons.1 hx with rfl | hx
    · exact ha
    · exact hl x hx
  · intro x hx
    obtain ⟨y, hy, rfl⟩ := List.mem_map.1 hx
    exact Specifier.clear_no (hl y hy).1

theorem parse_pipes (a : PyStr) (l : List (Bool × PyStr)) (ha : '|' ∉ a) (hl : ∀ x ∈ l, '|' ∉ x.2)
    (hb : ∀ x ∈ l.dropLast, ∃ c ∈ x.2, isSpace c = false) :
    parseSpecifier (pipes a l) = (mapAll parseSpecifier (a :: l.map (·.2))).bind anyOf := by
  have no : ∀ {s : PyStr}, '|' ∉ s → ∀ c ∈ clearWhitespace s, c ≠ '|' := by
    rintro s hs c hc rfl
    exact Specifier.clear_no hs hc
  have all : ∀ l : List PyStr, (∀ s ∈ l, '|' ∉ s) → mapAll parseSpecifier l = mapAll parseAll (l.map clearWhitespace) := by
    intro l h
    induction l with
    | nil => rfl
    | cons s l ih =>
      simp only [List.map_cons, mapAll]
      rw [parse_no_pipe (h s (by simp)), ih (fun t ht => h t (by simp [ht]))]
  rw [all]
  · unfold parseSpecifier parseAny
    rw [clear_pipes, splitPipes_pipes _ _ (no ha)]
    · simp only [List.map_cons, List.map_map]
      rfl
    · intro x hx
      obtain ⟨y, hy, rfl⟩ := List.mem_map.1 hx
      exact no (hl y hy)
    · intro x hx
      rw [← List.map_dropLast] at hx
      obtain ⟨y, hy, rfl⟩ := List.mem_map.1 hx
      obtain ⟨c, hc, hs⟩ := hb y hy
      intro h0
      rw [clearWhitespace_eq, List.filter_eq_nil_iff] at h0
      exact h0 c hc (by simp [hs])
  · intro s hs
    rcases List.mem_cons.1 hs with rfl | hs
    · exact ha
    · obtain ⟨x, hx, rfl⟩ := List.mem_map.1 hs
      exact hl x hx

end Loud
end Verif
