import Verif.Spec.NormalText
import Verif.Props.Pep440Order
import Verif.Props.Parsing
/-!
# C81: the normal form of PEP 440
-/

namespace Verif

open Pep440

theorem strip_ok {d : PyStr} (h : Digits d) : Numeral (strip d) ∧ number (strip d) = number d := by
  obtain ⟨-, h⟩ := h
  have key : ∀ d : PyStr, (∀ c ∈ d, IsDigit c) → number (d.dropWhile (· = '0')) = number d := by
    intro d
    induction d with
    | nil => intro _; rfl
    | cons c d ih =>
      intro h
      by_cases hc : c = '0'
      · subst hc
        simp only [List.dropWhile_cons, decide_true, if_true]
        rw [ih (fun c hc => h c (by simp [hc]))]
        simp [number]
      · simp [List.dropWhile_cons, hc]
  unfold strip
  have hk := key d h
  have hd : ∀ c ∈ d.dropWhile (· = '0'), IsDigit c := fun c hc => h c ((List.dropWhile_sublist _).subset hc)
  cases e : d.dropWhile (· = '0') with
  | nil => rw [e] at hk; exact ⟨.inl rfl, hk⟩
  | cons c r =>
    rw [e] at hk hd
    refine ⟨.inr ⟨c, r, rfl, hd c (by simp), ?_, fun x hx => hd x (by simp [hx])⟩, hk⟩
    have := List.head_dropWhile_not (· = '0') (l := d) (by rw [e]; simp)
    simpa [e] using this

theorem intStr_strip {d : PyStr} (h : Digits d) : intStr (number d : Int) = strip d := by
  rw [← (strip_ok h).2, intStr_number (strip_ok h).1]

theorem intStr_value {w : List PyStr} {t : TagSpelling} (h : t.WF w) : intStr (t.num : Int) = valueText t := by
  unfold TagSpelling.num valueText
  cases e : t.value with
  | none => rfl
  | some x => obtain ⟨s, d⟩ := x; exact intStr_strip (h.value s d e).2

theorem pre_words : ∀ e ∈ Spelling.phaseMeaning, e.1.map foldCase ∈ preWords →
    (dictGet Phases.toShort (normalPhase e.2)).getD (normalPhase e.2) = preWord e.1 := by decide +kernel
theorem post_words : ∀ e ∈ Spelling.phaseMeaning, e.1.map foldCase ∈ postWords →
    (dictGet Phases.toShort (normalPhase e.2)).getD (normalPhase e.2) = "post".toList := by decide +kernel
theorem dev_words : ∀ e ∈ Spelling.phaseMeaning, e.1.map foldCase ∈ devWords →
    (dictGet Phases.toShort (normalPhase e.2)).getD (normalPhase e.2) = "dev".toList := by decide +kernel

theorem tag_text {t : TagSpelling} {g : Tag} (h : Spelling.TagOf t g) {w : List PyStr} (hw : t.WF w) (x : PyStr)
    (hx : (dictGet Phases.toShort (normalPhase g.phase)).getD (normalPhase g.phase) = x) :
    g.normalized.toShortStr = x ++ valueText t := by
  rw [tag_short, ← hx]
  show _ ++ intStr g.value = _
  rw [h.2, intStr_value hw]; rfl

theorem labelText_part {s : PyStr} {x : LocalPart} (h : Spelling.PartOf s x) : x.toStr = labelText id s := by
  unfold labelText
  rcases h with ⟨h, rfl⟩ | ⟨h, rfl⟩
  · rw [if_pos h]; exact intStr_strip h
  · rw [if_neg h]; simp [LocalPart.toStr]

theorem labels_text {l : List PyStr} {m : List LocalPart} (h : List.Forall₂ Spelling.PartOf l m) :
    m.map LocalPart.toStr = l.map (labelText id) := by
  induction h with
  | nil => rfl
  | cons h _ ih => simp [labelText_part h, ih]

/-- C81. The PEP 440 string of a parsed version is the normal form of the text, with local labels left in their case. -/
theorem C81_text (p : Spelling) (hp : p.WF) (hg : p.Greedy) (hl : p.LowerCase) :
    ∃ v, Version.parse p.text = .ok v ∧ v.toPep440Str = .ok (textWith id p) := by
  obtain ⟨v, hv⟩ := (C42_success p.text).2 ⟨p, hp, hg, rfl, hl⟩
  rw [parse_text hp hg] at hv
  have ho := (meaning_ok hp v).1 hv
  refine ⟨v, by rw [parse_text hp hg, hv], ?_⟩
  have hc := canonical_of hp ho
  rw [pep440_ok (C14_normalize v hc.valid), short_text]
  unfold textWith
  congr 1
  congr 1
  · congr 1
    · congr 1
      · congr 1
        · congr 1
          · have := ho.epoch
            unfold Version.epochPart epochText Epoch.truthy
            cases e : p.epoch with
            | none => simp [this, e]
            | some d =>
              obtain ⟨h1, h2⟩ := strip_ok (hp.epoch d e)
              rw [e] at this
              simp only [Option.map_some, Option.getD_some] at this
              rw [this]
              simp only [← numeral_zero h1, h2]
              by_cases h0 : number d = 0
              · simp [h0]
              · simp [h0, Epoch.toStr, this, intStr_strip (hp.epoch d e)]
          · show join ['.'] (v.release.parts.map intStr) = _
            rw [ho.release, List.map_map, List.map_cons, join_cons, List.map_map]
            congr 1
            · exact intStr_strip hp.major
            · congr 1
              exact List.map_congr_left fun d hd => congrArg ('.' :: ·) (intStr_strip (hp.release d hd))
        · have := ho.pre
          cases e : p.pre <;> cases e' : v.pre <;> simp only [e, e', Spelling.OptOf] at this
          · rfl
          · rename_i t g
            have hw := hp.pre t e
            simp only [Version.part, Option.map, Spelling.optText]
            rw [tag_text this hw _ (pre_words _ this.1 hw.phase)]
            simp
      · have := ho.post
        cases e : p.post <;> cases e' : v.post <;> simp only [e, e', Spelling.OptOf] at this
        · rfl
        · rename_i t g
          have hw := hp.post t e
          cases t with
          | implicit d =>
            cases this
            simp only [Version.part, Option.map, Spelling.optText, postText]
            rw [tag_short]
            show _ = ".post".toList ++ strip d
            rw [← intStr_strip hw]
            have e : (⟨"post".toList, (number d : Int)⟩ : Tag).normalized = ⟨"post".toList, (number d : Int)⟩ := rfl
            have e' : (⟨"post".toList, (number d : Int)⟩ : Tag).short = "post".toList := by
              show (dictGet Phases.toShort "post".toList).getD "post".toList = _
              decide +kernel
            rw [e, e']
            simp
          | tag t =>
            simp only [Version.part, Option.map, Spelling.optText, postText]
            rw [tag_text this hw _ (post_words _ this.1 hw.phase)]
            simp
    · have := ho.dev
      cases e : p.dev <;> cases e' : v.dev <;> simp only [e, e', Spelling.OptOf] at this
      · rfl
      · rename_i t g
        have hw := hp.dev t e
        simp only [Version.part, Option.map, Spelling.optText]
        rw [tag_text this hw _ (dev_words _ this.1 hw.phase)]
        simp
  · have := ho.local_
    cases e : p.local_ <;> cases e' : v.local_ <;> simp only [e, e', Spelling.OptOf] at this
    · rfl
    · rename_i l g
      simp only [Version.part, Spelling.optText]
      show ['+'] ++ (join ['.'] (g.parts.map LocalPart.toStr) ++ []) = _
      rw [labels_text this, List.map_cons, join_cons, List.append_nil]
      simp only [List.map_map]
      rfl

/-- `v0!01.0-c_02-3.dev+0A_00` -/
def exSpelling : Spelling :=
  { v := ['v'], epoch := some ['0'], major := "01".toList, release := [['0']], pre := some ⟨['-'], ['c'], some (['_'], "02".toList)⟩,
    post := some (.implicit ['3']), dev := some ⟨['.'], "dev".toList, none⟩, local_ := some ("0A".toList, [('_', "00".toList)]) }

example : exSpelling.WF ∧ exSpelling.Greedy ∧ exSpelling.LowerCase ∧ exSpelling.text = "v0!01.0-c_02-3.dev+0A_00".toList ∧
    textWith id exSpelling = "1.0rc2.post3.dev0+0A.0".toList ∧ normalText exSpelling = "1.0rc2.post3.dev0+0a.0".toList := by
  refine ⟨by decide +kernel, by decide +kernel, ⟨?_, ?_, ?_⟩, by decide +kernel, by decide +kernel, by decide +kernel⟩
  · rintro _ ⟨⟩; decide
  · rintro _ ⟨⟩
  · rintro _ ⟨⟩; decide

theorem lower_fixed (c : Char) : lower c = c ↔ ¬ ('A' ≤ c ∧ c ≤ 'Z') := by
  unfold lower
  by_cases h : 'A' ≤ c ∧ c ≤ 'Z'
  · rw [if_pos h]
    refine iff_of_false ?_ (not_not.2 h)
    have aux : ∀ n < 91, 65 ≤ n → Char.ofNat (n + 32) ≠ Char.ofNat n := by decide +kernel
    have h1 : 65 ≤ c.toNat := h.1
    have h2 : c.toNat ≤ 90 := h.2
    have := aux c.toNat (by omega) h1
    rwa [Char.ofNat_toNat] at this
  · rw [if_neg h]
    exact iff_of_true rfl h

theorem strip_lower {s : PyStr} (h : Digits s) : ∀ c ∈ strip s, lower c = c :=
  fun c hc => lower_of_lower (.inr ((strip_ok h).1.digits.2 c hc))

theorem map_fixed (s : PyStr) : s.map lower = s ↔ ∀ c ∈ s, lower c = c := by
  induction s with
  | nil => simp
  | cons c s ih => simp [ih]

theorem labelText_lower (s : PyStr) : labelText lower s = (labelText id s).map lower := by
  unfold labelText
  by_cases h : Digits s
  · rw [if_pos h, if_pos h]
    exact ((map_fixed _).2 (strip_lower h)).symm
  · rw [if_neg h, if_neg h, List.map_id]

theorem labelText_fixed (s : PyStr) : (labelText id s).map lower = labelText id s ↔ ∀ c ∈ s, lower c = c := by
  unfold labelText
  by_cases h : Digits s
  · rw [if_pos h, map_fixed]
    exact iff_of_true (strip_lower h) (fun c hc => lower_of_lower (.inr (h.2 c hc)))
  · rw [if_neg h, List.map_id, map_fixed]

theorem textWith_lower (p : Spelling) : textWith lower p = textWith id p ↔ LowerLabels p := by
  unfold textWith LowerLabels
  rw [List.append_cancel_left_eq]
  cases p.local_ with
  | none => simp [Spelling.optText]
  | some l =>
    obtain ⟨a, l⟩ := l
    simp only [Spelling.optText, List.cons.injEq, true_and, Option.some.injEq, forall_eq', List.forall_mem_cons, List.forall_mem_map]
    have e : (l.map (fun x => '.' :: labelText lower x.2)).flatten = ((l.map (fun x => '.' :: labelText id x.2)).flatten).map lower := by
      induction l with
      | nil => rfl
      | cons x l ih =>
        simp only [List.map_cons, List.flatten_cons, List.map_append, ← ih, labelText_lower]
        rfl
    have e' : ((l.map (fun x => '.' :: labelText id x.2)).flatten).map lower = (l.map (fun x => '.' :: labelText id x.2)).flatten ↔
        ∀ x ∈ l, (labelText id x.2).map lower = labelText id x.2 := by
      simp only [map_fixed, List.mem_flatten, List.mem_map]
      constructor
      · intro h x hx c hc
        exact h c ⟨_, ⟨x, hx, rfl⟩, by simp [hc]⟩
      · rintro h c ⟨_, ⟨x, hx, rfl⟩, hc⟩
        rcases List.mem_cons.1 hc with rfl | hc
        · decide
        · exact h x hx c hc
    rw [e, labelText_lower, ← List.map_append]
    constructor
    · intro h
      rw [List.map_append] at h
      obtain ⟨h1, h2⟩ := List.append_inj h (by simp)
      refine ⟨fun c hc => (lower_fixed c).1 ((labelText_fixed a).1 h1 c hc), fun x hx c hc => (lower_fixed c).1 ((labelText_fixed x.2).1 (e'.1 h2 x hx) c hc)⟩
    · rintro ⟨h1, h2⟩
      rw [List.map_append, (labelText_fixed a).2 fun c hc => (lower_fixed c).2 (h1 c hc),
        e'.2 fun x hx => (labelText_fixed x.2).2 fun c hc => (lower_fixed c).2 (h2 x hx c hc)]

/-- C81. It is the normal form of PEP 440 exactly if there are no upper-case letters in the phases and labels. -/
theorem C81_normal (p : Spelling) (hp : p.WF) (hg : p.Greedy) :
    (∃ v, Version.parse p.text = .ok v ∧ v.toPep440Str = .ok (normalText p)) ↔ p.LowerCase ∧ LowerLabels p := by
  constructor
  · rintro ⟨v, h1, h2⟩
    have hl : p.LowerCase := by
      by_contra hl
      rw [(C42_value_error _).2 ⟨p, hp, hg, rfl, hl⟩] at h1
      cases h1
    obtain ⟨w, h3, h4⟩ := C81_text p hp hg hl
    rw [h1] at h3
    cases h3
    rw [h2] at h4
    exact ⟨hl, (textWith_lower p).1 (Except.ok.inj h4)⟩
  · rintro ⟨h1, h2⟩
    obtain ⟨v, h3, h4⟩ := C81_text p hp hg h1
    exact ⟨v, h3, by rw [h4, ← (textWith_lower p).2 h2]; rfl⟩

example : (Version.parse "V1.00Beta-3".toList).toOption = none ∧ Version.parse "V1.00beta-3".toList = .ok (exVersion [1, 0] (some ⟨"beta".toList, 3⟩)) ∧
    (exVersion [1, 0] (some ⟨"beta".toList, 3⟩)).toPep440Str = .ok "1.0b3".toList := by decide +kernel

/-- C81. Two strings denote the same version after `normalize` exactly if their normal texts are the same. -/
theorem C81_same (p q : Spelling) (hp : p.WF) (gp : p.Greedy) (lp : p.LowerCase) (hq : q.WF) (gq : q.Greedy) (lq : q.LowerCase) :
    ∃ v w, Version.parse p.text = .ok v ∧ Version.parse q.text = .ok w ∧ (v.normalize = w.normalize ↔ textWith id p = textWith id q) := by
  obtain ⟨v, h1, h2⟩ := C81_text p hp gp lp
  obtain ⟨w, h3, h4⟩ := C81_text q hq gq lq
  refine ⟨v, w, h1, h3, ?_⟩
  rw [← C59_injective v w (parse_canonical h1) (parse_canonical h3), h2, h4]
  exact ⟨fun h => Except.ok.inj h, fun h => congrArg _ h⟩

example : ["1.0c1", "1.0-pre.1", "v1.0_preview_01", "0!1.0rc1"].map (fun s => (Version.parse s.toList >>= Version.toPep440Str)) =
    List.replicate 4 (.ok "1.0rc1".toList) := by decide +kernel

end Verif
