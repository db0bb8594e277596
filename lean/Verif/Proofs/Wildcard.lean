import Verif.Proofs.Printing
import Verif.Spec.Specification
/-!
# The wildcard pattern
-/

namespace Verif

open Re

namespace Re

/-- The strings a pattern matches. -/
def Lang (r : Re) (w : PyStr) : Prop := ∃ c, Matches r w c

theorem lang_seq (a b : Re) (w : PyStr) : Lang (seq a b) w ↔ ∃ x y, w = x ++ y ∧ Lang a x ∧ Lang b y := by
  constructor
  · rintro ⟨_, w1, w2, c1, c2, h, -, m1, m2⟩
    exact ⟨w1, w2, h, ⟨_, m1⟩, ⟨_, m2⟩⟩
  · rintro ⟨w1, w2, h, ⟨c1, m1⟩, ⟨c2, m2⟩⟩
    exact ⟨_, w1, w2, c1, c2, h, rfl, m1, m2⟩

theorem lang_alt (a b : Re) (w : PyStr) : Lang (alt a b) w ↔ Lang a w ∨ Lang b w :=
  ⟨fun ⟨c, m⟩ => m.elim (fun m => .inl ⟨c, m⟩) (fun m => .inr ⟨c, m⟩),
    fun h => h.elim (fun ⟨c, m⟩ => ⟨c, .inl m⟩) (fun ⟨c, m⟩ => ⟨c, .inr m⟩)⟩

theorem lang_opt (a : Re) (w : PyStr) : Lang (opt a) w ↔ Lang a w ∨ w = [] :=
  ⟨fun ⟨c, m⟩ => m.elim (fun m => .inl ⟨c, m⟩) (fun m => .inr m.1),
    fun h => h.elim (fun ⟨c, m⟩ => ⟨c, .inl m⟩) (fun m => ⟨[], .inr ⟨m, rfl⟩⟩)⟩

theorem lang_group (g : Grp) (a : Re) (w : PyStr) : Lang (group g a) w ↔ Lang a w :=
  ⟨fun ⟨_, c, m, _⟩ => ⟨c, m⟩, fun ⟨_, m⟩ => ⟨_, _, m, rfl⟩⟩

theorem lang_of {r : Re} {P : PyStr → Prop} (h : ∀ w c, Matches r w c ↔ P w ∧ c = []) (w : PyStr) : Lang r w ↔ P w :=
  ⟨fun ⟨c, m⟩ => ((h w c).1 m).1, fun hp => ⟨[], (h w []).2 ⟨hp, rfl⟩⟩⟩

end Re

theorem lang_digits (w : PyStr) : Lang Pattern.digits w ↔ Digits w := lang_of digits_iff w
theorem lang_lit (l : Char) (w : PyStr) : Lang (lit l) w ↔ w = [l] := lang_of (lit_iff l) w
theorem lang_optSep (w : PyStr) : Lang (opt Pattern.separator) w ↔ OptSep w := lang_of optSep_iff w
theorem lang_release (w : PyStr) : Lang Pattern.releaseNumbers w ↔ ∃ m l, Digits m ∧ (∀ d ∈ l, Digits d) ∧ w = Spelling.releaseText m l := by
  constructor
  · rintro ⟨c, m⟩
    have := (release_iff w c).1 m
    obtain ⟨⟨a, l, h1, h2, h3⟩, -⟩ := this
    exact ⟨a, l, h1, h2, h3⟩
  · rintro ⟨a, l, h1, h2, h3⟩
    exact ⟨[], (release_iff w []).2 ⟨⟨a, l, h1, h2, h3⟩, rfl⟩⟩

theorem lang_letter (l : Char) (hl : l ∈ "abcdefghijklmnopqrstuvwxyz".toList) (w : PyStr) : Lang (letter l) w ↔ ∃ c, w = [c] ∧ foldCase c = l :=
  ⟨fun ⟨c, m⟩ => by obtain ⟨x, h1, h2, -⟩ := (letter_iff l hl w c).1 m; exact ⟨x, h1, h2⟩,
    fun ⟨x, h1, h2⟩ => ⟨[], (letter_iff l hl w []).2 ⟨x, h1, h2, rfl⟩⟩⟩

theorem lang_v (w : PyStr) : Lang (opt (letter 'v')) w ↔ w = [] ∨ w = ['v'] ∨ w = ['V'] := by
  rw [lang_opt, lang_letter 'v' (by decide), or_comm]
  refine or_congr_right ?_
  constructor
  · rintro ⟨x, rfl, hx⟩
    rcases (fold_v x).1 hx with rfl | rfl
    · exact .inl rfl
    · exact .inr rfl
  · rintro (rfl | rfl)
    · exact ⟨_, rfl, by decide⟩
    · exact ⟨_, rfl, by decide⟩

theorem fold_x (c : Char) : foldCase c = 'x' ↔ c = 'x' ∨ c = 'X' := by
  constructor
  · intro h
    unfold foldCase at h
    split at h
    · next hc =>
      have := upper_mem c hc
      have key : ∀ c ∈ "ABCDEFGHIJKLMNOPQRSTUVWXYZ".toList, Char.ofNat (c.toNat + 32) = 'x' → c = 'X' := by decide
      exact .inr (key c this h)
    · split at h
      · exact absurd h (by decide)
      · split at h
        · exact absurd h (by decide)
        · split at h
          · exact absurd h (by decide)
          · exact .inl h
  · rintro (rfl | rfl) <;> decide

theorem lang_wildcard (w : PyStr) : Lang Pattern.wildcard w ↔ ∃ c, w = [c] ∧ IsWildcard c := by
  unfold Pattern.wildcard IsWildcard
  rw [lang_alt, lang_letter 'x' (by decide), lang_lit]
  constructor
  · rintro (⟨c, rfl, h⟩ | rfl)
    · rcases (fold_x c).1 h with rfl | rfl
      · exact ⟨_, rfl, .inl rfl⟩
      · exact ⟨_, rfl, .inr (.inl rfl)⟩
    · exact ⟨_, rfl, .inr (.inr rfl)⟩
  · rintro ⟨c, rfl, rfl | rfl | rfl⟩
    · exact .inl ⟨_, rfl, by decide⟩
    · exact .inl ⟨_, rfl, by decide⟩
    · exact .inr rfl

theorem lang_epoch (w : PyStr) : Lang (opt (seqs [Pattern.digits, lit '!'])) w ↔ ∃ e, (∀ d, e = some d → Digits d) ∧ w = Spelling.epochText e := by
  simp only [lang_opt, seqs, lang_seq, lang_digits, lang_lit]
  constructor
  · rintro (⟨x, y, rfl, hx, rfl⟩ | rfl)
    · exact ⟨some x, (by rintro _ ⟨⟩; exact hx), rfl⟩
    · exact ⟨none, by simp, rfl⟩
  · rintro ⟨e, he, rfl⟩
    cases e with
    | none => exact .inr rfl
    | some d => exact .inl ⟨d, _, rfl, he d rfl, rfl⟩

section tags
variable {ph : List String} {words : List PyStr} (hph : ∀ w caps, Matches (Pattern.phases ph) w caps ↔ w.map foldCase ∈ words ∧ caps = [])
include hph

/-- A tag. -/
theorem lang_tag (w : PyStr) :
    Lang (seqs [opt Pattern.separator, seqs [Pattern.phases ph, opt (seqs [opt Pattern.separator, Pattern.digits])]]) w ↔
      ∃ t : TagSpelling, t.WF words ∧ w = t.text := by
  have hph := lang_of hph
  simp only [seqs, lang_seq, lang_opt Pattern.digits, lang_optSep, hph]
  constructor
  · rintro ⟨s, _, rfl, hs, p, v, rfl, hp, hv⟩
    rw [lang_opt, lang_seq] at hv
    rcases hv with ⟨s', d, rfl, hs', hd⟩ | rfl
    · refine ⟨⟨s, p, some (s', d)⟩, ⟨hs, hp, ?_⟩, rfl⟩
      rintro _ _ ⟨⟩
      exact ⟨(lang_optSep _).1 hs', (lang_digits _).1 hd⟩
    · exact ⟨⟨s, p, none⟩, ⟨hs, hp, by simp⟩, rfl⟩
  · rintro ⟨⟨s, p, v⟩, ht, rfl⟩
    refine ⟨s, _, rfl, ht.sep, p, _, rfl, ht.phase, ?_⟩
    rw [lang_opt, lang_seq]
    cases v with
    | none => exact .inr rfl
    | some x => exact .inl ⟨x.1, x.2, rfl, (lang_optSep _).2 (ht.value x.1 x.2 rfl).1, (lang_digits _).2 (ht.value x.1 x.2 rfl).2⟩

/-- A tag with a wildcard as value. -/
theorem lang_wildTag (w : PyStr) :
    Lang (seqs [opt Pattern.separator, seqs [Pattern.phases ph, opt Pattern.separator, Pattern.wildcard]]) w ↔
      ∃ t : TagSpelling, t.WF words ∧ Spelling.TagZero t ∧ ∃ c, IsWildcard c ∧ w = t.text.dropLast ++ [c] := by
  have hph := lang_of hph
  have e : ∀ (s p s' : PyStr) (c : Char), (TagSpelling.mk s p (some (s', ['0']))).text.dropLast ++ [c] = s ++ (p ++ (s' ++ [c])) := by
    intro s p s' c
    have : (TagSpelling.mk s p (some (s', ['0']))).text = (s ++ (p ++ s')) ++ ['0'] := by
      simp [TagSpelling.text, TagSpelling.body, TagSpelling.valueText]
    rw [this, List.dropLast_concat]
    simp
  simp only [seqs, lang_seq, lang_optSep, hph, lang_wildcard]
  constructor
  · rintro ⟨s, _, rfl, hs, p, _, rfl, hp, s', _, rfl, hs', c, rfl, hc⟩
    refine ⟨⟨s, p, some (s', ['0'])⟩, ⟨hs, hp, ?_⟩, ⟨s', rfl⟩, c, hc, (e s p s' c).symm⟩
    rintro _ _ ⟨⟩
    exact ⟨hs', by decide⟩
  · rintro ⟨⟨s, p, v⟩, ht, ⟨s', hv⟩, c, hc, rfl⟩
    dsimp only at hv
    subst hv
    exact ⟨s, _, e s p s' c, ht.sep, p, _, rfl, ht.phase, s', _, rfl, (ht.value _ _ rfl).1, c, rfl, hc⟩

end tags

theorem dropLast_tag (a : PyStr) {t : TagSpelling} (h : Spelling.TagZero t) : (a ++ t.text).dropLast = a ++ t.text.dropLast := by
  obtain ⟨s, p, v⟩ := t
  obtain ⟨s', rfl⟩ := h
  apply List.dropLast_append_of_ne_nil
  simp [TagSpelling.text, TagSpelling.body, TagSpelling.valueText]

theorem release_snoc (m : PyStr) (l : List PyStr) (d : PyStr) : Spelling.releaseText m (l ++ [d]) = Spelling.releaseText m l ++ '.' :: d := by
  simp [Spelling.releaseText]

/-- The wildcard pattern matches versions that end in the number 0, with a wildcard instead. -/
theorem lang_wildcardVersion (w : PyStr) :
    Lang Pattern.wildcardVersion w ↔ ∃ p : Spelling, p.WF ∧ p.EndsInZero ∧ ∃ c, IsWildcard c ∧ w = p.wild c := by
  have hpreO : ∀ w, Lang (opt (seqs [opt Pattern.separator, seqs [Pattern.phases Pattern.prePhases, opt (seqs [opt Pattern.separator, Pattern.digits])]])) w ↔
      ∃ t : Option TagSpelling, (∀ x, t = some x → x.WF preWords) ∧ w = Spelling.optText TagSpelling.text t := by
    intro w
    rw [lang_opt, lang_tag pre_iff]
    constructor
    · rintro (⟨t, ht, rfl⟩ | rfl)
      · exact ⟨some t, (by rintro _ ⟨⟩; exact ht), rfl⟩
      · exact ⟨none, by simp, rfl⟩
    · rintro ⟨t, ht, rfl⟩
      cases t with
      | none => exact .inr rfl
      | some t => exact .inl ⟨t, ht t rfl, rfl⟩
  have hpostO : ∀ w, Lang (opt (alt (seqs [lit '-', Pattern.digits])
      (seqs [opt Pattern.separator, seqs [Pattern.phases Pattern.postPhases, opt (seqs [opt Pattern.separator, Pattern.digits])]]))) w ↔
      ∃ t : Option PostSpelling, (∀ x, t = some x → x.WF postWords) ∧ w = Spelling.optText PostSpelling.text t := by
    intro w
    rw [lang_opt, lang_alt, lang_tag post_iff]
    simp only [seqs, lang_seq, lang_lit, lang_digits]
    constructor
    · rintro ((⟨_, d, rfl, rfl, hd⟩ | ⟨t, ht, rfl⟩) | rfl)
      · exact ⟨some (.implicit d), (by rintro _ ⟨⟩; exact hd), rfl⟩
      · exact ⟨some (.tag t), (by rintro _ ⟨⟩; exact ht), rfl⟩
      · exact ⟨none, by simp, rfl⟩
    · rintro ⟨t, ht, rfl⟩
      cases t with
      | none => exact .inr rfl
      | some t =>
        left
        cases t with
        | implicit d => exact .inl ⟨_, d, rfl, rfl, ht _ rfl⟩
        | tag t => exact .inr ⟨t, ht _ rfl, rfl⟩
  have unfoldW : Lang Pattern.wildcardVersion w ↔ ∃ v b, w = v ++ b ∧ (v = [] ∨ v = ['v'] ∨ v = ['V']) ∧ ∃ et r, b = et ++ r ∧
      (∃ e, (∀ d, e = some d → Digits d) ∧ et = Spelling.epochText e) ∧ ((∃ c, r = [c] ∧ IsWildcard c) ∨
        ∃ rt x, r = rt ++ x ∧ (∃ m l, Digits m ∧ (∀ d ∈ l, Digits d) ∧ rt = Spelling.releaseText m l) ∧
          ((∃ c, IsWildcard c ∧ x = ['.', c]) ∨
            ((∃ t : TagSpelling, t.WF preWords ∧ Spelling.TagZero t ∧ ∃ c, IsWildcard c ∧ x = t.text.dropLast ++ [c]) ∨
            ∃ pt y, x = pt ++ y ∧ (∃ t : Option TagSpelling, (∀ x, t = some x → x.WF preWords) ∧ pt = Spelling.optText TagSpelling.text t) ∧
              (((∃ c, IsWildcard c ∧ y = ['-', c]) ∨ 
                (∃ t : TagSpelling, t.WF postWords ∧ Spelling.TagZero t ∧ ∃ c, IsWildcard c ∧ y = t.text.dropLast ++ [c])) ∨
              ∃ ot z, y = ot ++ z ∧ (∃ t : Option PostSpelling, (∀ x, t = some x → x.WF postWords) ∧ ot = Spelling.optText PostSpelling.text t) ∧
                (∃ t : TagSpelling, t.WF devWords ∧ Spelling.TagZero t ∧ ∃ c, IsWildcard c ∧ z = t.text.dropLast ++ [c]))))) := by
    have hlit : ∀ (l : Char) (w : PyStr), Lang (seqs [lit l, Pattern.wildcard]) w ↔ ∃ c, IsWildcard c ∧ w = [l, c] := by
      intro l w
      simp only [seqs, lang_seq, lang_lit, lang_wildcard]
      constructor
      · rintro ⟨_, _, rfl, rfl, c, rfl, hc⟩
        exact ⟨c, hc, rfl⟩
      · rintro ⟨c, hc, rfl⟩
        exact ⟨[l], [c], rfl, rfl, c, rfl, hc⟩
    unfold Pattern.wildcardVersion
    have s1 : ∀ a b : Re, seqs [a, b] = seq a b := fun _ _ => rfl
    have s2 : ∀ a b c : Re, seqs [a, b, c] = seq a (seq b c) := fun _ _ _ => rfl
    conv_lhs =>
      rw [s2, lang_seq]
    refine exists_congr fun v => exists_congr fun b => and_congr_right fun _ => and_congr (lang_v v) ?_
    rw [lang_seq]
    refine exists_congr fun et => exists_congr fun r => and_congr_right fun _ => and_congr (lang_epoch et) ?_
    rw [lang_alt]
    refine or_congr (lang_wildcard r) ?_
    rw [s1 Pattern.releaseNumbers, lang_seq]
    refine exists_congr fun rt => exists_congr fun x => and_congr_right fun _ => and_congr (lang_release rt) ?_
    rw [lang_alt]
    refine or_congr (hlit '.' x) ?_
    rw [lang_alt]
    refine or_congr (lang_wildTag pre_iff x) ?_
    rw [s1 (opt _) (alt _ _), lang_seq]
    refine exists_congr fun pt => exists_congr fun y => and_congr_right fun _ => and_congr (hpreO pt) ?_
    rw [lang_alt]
    refine or_congr ?_ ?_
    · rw [lang_alt]
      exact or_congr (hlit '-' y) (lang_wildTag post_iff y)
    · rw [s1 (opt (alt _ _)), lang_seq]
      exact exists_congr fun ot => exists_congr fun z => and_congr_right fun _ => and_congr (hpostO ot) (lang_wildTag dev_iff z)
  rw [unfoldW]
  constructor
  · rintro ⟨v, _, rfl, hv, _, _, rfl, ⟨e, he, rfl⟩, ⟨c, rfl, hc⟩ | ⟨_, _, rfl, ⟨m, l, hm, hl, rfl⟩, h⟩⟩
    · refine ⟨⟨v, e, ['0'], [], none, none, none, none⟩, ⟨hv, he, (by decide : Digits ['0']), by simp, by simp, by simp, by simp, by simp⟩, ⟨rfl, rfl⟩, c, hc, ?_⟩
      simp only [Spelling.wild, Spelling.text, Spelling.releaseText, Spelling.optText, Spelling.localText, List.map_nil, List.flatten_nil,
        List.append_nil]
      rw [List.dropLast_concat]
      simp
    · rcases h with ⟨c, hc, rfl⟩ | ⟨t, ht, hz, c, hc, rfl⟩ | ⟨_, _, rfl, ⟨a, ha, rfl⟩, (⟨c, hc, rfl⟩ | ⟨t, ht, hz, c, hc, rfl⟩) | ⟨_, _, rfl, ⟨b, hb, rfl⟩, t, ht, hz, c, hc, rfl⟩⟩
      · refine ⟨⟨v, e, m, l ++ [['0']], none, none, none, none⟩, ⟨hv, he, hm, ?_, by simp, by simp, by simp, by simp⟩, ⟨rfl, by simp⟩, c, hc, ?_⟩
        · intro d hd
          rcases List.mem_append.1 hd with hd | hd
          · exact hl d hd
          · rw [List.mem_singleton] at hd
            subst hd
            decide
        · have : v ++ Spelling.epochText e ++ Spelling.releaseText m (l ++ [['0']]) = (v ++ Spelling.epochText e ++ Spelling.releaseText m l ++ ['.']) ++ ['0'] := by
            simp [release_snoc]
          simp only [Spelling.wild, Spelling.text, Spelling.optText, Spelling.localText, List.append_nil]
          rw [this, List.dropLast_concat]
          simp
      · refine ⟨⟨v, e, m, l, some t, none, none, none⟩, ⟨hv, he, hm, hl, (by rintro _ ⟨⟩; exact ht), by simp, by simp, by simp⟩, ⟨rfl, hz⟩, c, hc, ?_⟩
        simp only [Spelling.wild, Spelling.text, Spelling.optText, Spelling.localText, List.append_nil]
        rw [dropLast_tag _ hz]
        simp
      · refine ⟨⟨v, e, m, l, a, some (.implicit ['0']), none, none⟩, ⟨hv, he, hm, hl, ha, (by rintro _ ⟨⟩; exact (by decide : Digits ['0'])), by simp, by simp⟩,
          ⟨rfl, rfl⟩, c, hc, ?_⟩
        have : ∀ x : PyStr, x ++ PostSpelling.text (.implicit ['0']) = (x ++ ['-']) ++ ['0'] := by
          intro x
          simp [PostSpelling.text]
        simp only [Spelling.wild, Spelling.text, Spelling.optText, Spelling.localText, List.append_nil]
        rw [this, List.dropLast_concat]
        simp
      · refine ⟨⟨v, e, m, l, a, some (.tag t), none, none⟩, ⟨hv, he, hm, hl, ha, (by rintro _ ⟨⟩; exact ht), by simp, by simp⟩, ⟨rfl, hz⟩, c, hc, ?_⟩
        simp only [Spelling.wild, Spelling.text, Spelling.optText, Spelling.localText, List.append_nil, PostSpelling.text]
        rw [dropLast_tag _ hz]
        simp
      · refine ⟨⟨v, e, m, l, a, b, some t, none⟩, ⟨hv, he, hm, hl, ha, hb, (by rintro _ ⟨⟩; exact ht), by simp⟩, ⟨rfl, hz⟩, c, hc, ?_⟩
        simp only [Spelling.wild, Spelling.text, Spelling.optText, Spelling.localText, List.append_nil]
        rw [dropLast_tag _ hz]
        simp
  · rintro ⟨⟨v, e, m, l, a, b, d, loc⟩, hp, ⟨hloc, hz⟩, c, hc, rfl⟩
    dsimp only at hloc hz
    subst hloc
    cases d with
    | some t =>
      have hz : Spelling.TagZero t := by simpa using hz
      refine ⟨v, _, ?_, hp.v, _, _, rfl, ⟨e, hp.epoch, rfl⟩, .inr ⟨_, _, rfl, ⟨m, l, hp.major, hp.release, rfl⟩, .inr (.inr ⟨_, _, rfl, ⟨a, hp.pre, rfl⟩,
        .inr ⟨_, _, rfl, ⟨b, hp.post, rfl⟩, t, hp.dev t rfl, hz, c, hc, rfl⟩⟩)⟩⟩
      simp only [Spelling.wild, Spelling.text, Spelling.optText, Spelling.localText, List.append_nil]
      rw [dropLast_tag _ hz]
      simp
    | none =>
      cases b with
      | some b =>
        cases b with
        | implicit d =>
          have hz : d = ['0'] := by cases a <;> simpa using hz
          subst hz
          refine ⟨v, _, ?_, hp.v, _, _, rfl, ⟨e, hp.epoch, rfl⟩, .inr ⟨_, _, rfl, ⟨m, l, hp.major, hp.release, rfl⟩, .inr (.inr ⟨_, _, rfl, ⟨a, hp.pre, rfl⟩,
            .inl (.inl ⟨c, hc, rfl⟩)⟩)⟩⟩
          have : ∀ x : PyStr, x ++ PostSpelling.text (.implicit ['0']) = (x ++ ['-']) ++ ['0'] := by
            intro x
            simp [PostSpelling.text]
          simp only [Spelling.wild, Spelling.text, Spelling.optText, Spelling.localText, List.append_nil]
          rw [this, List.dropLast_concat]
          simp
        | tag t =>
          have hz : Spelling.TagZero t := by cases a <;> simpa using hz
          refine ⟨v, _, ?_, hp.v, _, _, rfl, ⟨e, hp.epoch, rfl⟩, .inr ⟨_, _, rfl, ⟨m, l, hp.major, hp.release, rfl⟩, .inr (.inr ⟨_, _, rfl, ⟨a, hp.pre, rfl⟩,
            .inl (.inr ⟨t, hp.post _ rfl, hz, c, hc, rfl⟩)⟩)⟩⟩
          simp only [Spelling.wild, Spelling.text, Spelling.optText, Spelling.localText, List.append_nil, PostSpelling.text]
          rw [dropLast_tag _ hz]
          simp
      | none =>
        cases a with
        | some t =>
          have hz : Spelling.TagZero t := by simpa using hz
          refine ⟨v, _, ?_, hp.v, _, _, rfl, ⟨e, hp.epoch, rfl⟩, .inr ⟨_, _, rfl, ⟨m, l, hp.major, hp.release, rfl⟩, .inr (.inl
            ⟨t, hp.pre _ rfl, hz, c, hc, rfl⟩)⟩⟩
          simp only [Spelling.wild, Spelling.text, Spelling.optText, Spelling.localText, List.append_nil]
          rw [dropLast_tag _ hz]
          simp
        | none =>
          dsimp only at hz
          rcases List.eq_nil_or_concat l with rfl | ⟨l', x, rfl⟩
          · have hz : m = ['0'] := by simpa using hz
            subst hz
            refine ⟨v, _, ?_, hp.v, _, _, rfl, ⟨e, hp.epoch, rfl⟩, .inl ⟨c, rfl, hc⟩⟩
            simp only [Spelling.wild, Spelling.text, Spelling.releaseText, Spelling.optText, Spelling.localText, List.map_nil, List.flatten_nil,
              List.append_nil]
            rw [List.dropLast_concat]
            simp
          · have hz : x = ['0'] := by simpa using hz
            subst hz
            refine ⟨v, _, ?_, hp.v, _, _, rfl, ⟨e, hp.epoch, rfl⟩, .inr ⟨_, _, rfl, ⟨m, l', hp.major, fun d hd => hp.release d (by simp [hd]), rfl⟩, .inl
              ⟨c, hc, rfl⟩⟩⟩
            have : v ++ Spelling.epochText e ++ Spelling.releaseText m (l' ++ [['0']]) = (v ++ Spelling.epochText e ++ Spelling.releaseText m l' ++ ['.']) ++ ['0'] := by
              simp [release_snoc]
            simp only [Spelling.wild, Spelling.text, Spelling.optText, Spelling.localText, List.append_nil, List.concat_eq_append]
            rw [this, List.dropLast_concat]
            simp

end Verif
