import Verif.Spec.Pep440
import Verif.Proofs.Printing
import Verif.Proofs.Version
/-!
# Numerals and canonical strings
-/

namespace Verif

theorem decimalRev_fuel : ∀ (f g n : Nat), n < f → n < g → decimalRev f n = decimalRev g n := by
  intro f
  induction f with
  | zero => intro g n h; omega
  | succ f ih =>
    intro g n h1 h2
    cases g with
    | zero => omega
    | succ g =>
      unfold decimalRev
      by_cases h0 : n / 10 = 0
      · rw [if_pos h0, if_pos h0]
      · rw [if_neg h0, if_neg h0, ih g (n / 10) (by omega) (by omega)]

theorem natStr_small {n : Nat} (h : n < 10) : natStr n = [Nat.digitChar n] := by
  unfold natStr decimalRev
  rw [if_pos (by omega), Nat.mod_eq_of_lt h]
  rfl

theorem natStr_step {n : Nat} (h : 10 ≤ n) : natStr n = natStr (n / 10) ++ [Nat.digitChar (n % 10)] := by
  conv_lhs => unfold natStr decimalRev
  rw [if_neg (by omega), List.reverse_cons, decimalRev_fuel n (n / 10 + 1) (n / 10) (by omega) (by omega)]
  rfl

open Pep440

theorem numeral_natStr (n : Nat) : Numeral (natStr n) := by
  induction n using Nat.strong_induction_on with
  | _ n ih =>
    by_cases h : n < 10
    · rw [natStr_small h]
      by_cases h0 : n = 0
      · subst h0; left; rfl
      · right
        refine ⟨_, [], rfl, (digitChar_ok n h).2, ?_, by simp⟩
        intro e
        have := (digitChar_ok n h).1
        rw [e] at this
        exact h0 (by simpa using this.symm)
    · rw [natStr_step (by omega)]
      right
      have h1 := (digitChar_ok (n % 10) (Nat.mod_lt _ (by decide))).2
      rcases ih (n / 10) (by omega) with h2 | ⟨c, r, h2, h3, h4, h5⟩
      · exfalso
        have := number_natStr (n / 10)
        rw [h2] at this
        have e : number ['0'] = 0 := rfl
        omega
      · refine ⟨c, r ++ [Nat.digitChar (n % 10)], by rw [h2]; rfl, h3, h4, ?_⟩
        intro x hx
        rcases List.mem_append.1 hx with hx | hx
        · exact h5 x hx
        · rw [List.mem_singleton.1 hx]; exact h1

theorem Pep440.Numeral.digits {s : PyStr} (h : Numeral s) : Digits s := by
  rcases h with rfl | ⟨c, r, rfl, h1, -, h2⟩
  · exact ⟨by simp, by decide⟩
  · refine ⟨by simp, ?_⟩
    intro x hx
    rcases List.mem_cons.1 hx with rfl | hx
    · exact h1
    · exact h2 x hx

theorem digit_cases (c : Char) (h : IsDigit c) : c.toNat - 48 < 10 ∧ Nat.digitChar (c.toNat - 48) = c := by
  have aux : ∀ c ∈ "0123456789".toList, c.toNat - 48 < 10 ∧ Nat.digitChar (c.toNat - 48) = c := by decide
  exact aux c (digit_mem c h)

theorem number_pos_aux (r : PyStr) : ∀ n : Nat, 0 < n → 0 < r.foldl (fun n c => 10 * n + (c.toNat - 48)) n := by
  induction r with
  | nil => intro n h; exact h
  | cons c r ih => intro n h; exact ih _ (by show 0 < 10 * n + (c.toNat - 48); omega)

theorem number_pos {c : Char} {r : PyStr} (h : IsDigit c) (h0 : c ≠ '0') : 0 < number (c :: r) := by
  have : 0 < c.toNat - 48 := by
    have aux : ∀ c ∈ "0123456789".toList, c ≠ '0' → 0 < c.toNat - 48 := by decide
    exact aux c (digit_mem c h) h0
  exact number_pos_aux r _ (by show 0 < 10 * 0 + (c.toNat - 48); omega)

theorem natStr_number {s : PyStr} (h : Numeral s) : natStr (number s) = s := by
  rcases h with rfl | ⟨c, r, rfl, h1, h0, h2⟩
  · decide +kernel
  · induction r using List.reverseRecOn with
    | nil =>
      obtain ⟨h3, h4⟩ := digit_cases c h1
      have e : number [c] = c.toNat - 48 := by simp [number]
      rw [e, natStr_small h3, h4]
    | append_singleton r d ih =>
      have ih := ih (fun x hx => h2 x (by simp [hx]))
      obtain ⟨h3, h4⟩ := digit_cases d (h2 d (by simp))
      have hp := number_pos (r := r) h1 h0
      rw [← List.cons_append, number_snoc, natStr_step (by omega)]
      have e1 : (10 * number (c :: r) + (d.toNat - 48)) / 10 = number (c :: r) := by omega
      have e2 : (10 * number (c :: r) + (d.toNat - 48)) % 10 = d.toNat - 48 := by omega
      rw [e1, e2, ih, h4]

theorem numeral_intStr {n : Int} (h : 0 ≤ n) : Numeral (intStr n) := intStr_nonneg h ▸ numeral_natStr _

theorem intStr_number {s : PyStr} (h : Numeral s) : intStr (number s : Int) = s := natStr_number h

theorem numeral_zero {s : PyStr} (h : Numeral s) : number s = 0 ↔ s = ['0'] := by
  rcases h with rfl | ⟨c, r, rfl, h1, h0, h2⟩
  · exact ⟨fun _ => rfl, fun _ => rfl⟩
  · have := number_pos (r := r) h1 h0
    refine ⟨fun e => by omega, fun e => ?_⟩
    cases e; exact absurd rfl h0

/-! ### strings of versions -/

theorem short_text (v : Version) : v.toShortStr = (Version.epochPart v.epoch).flatten ++ v.release.toStr
    ++ (Version.part [] Tag.toShortStr v.pre).flatten ++ (Version.part ['.'] Tag.toShortStr v.post).flatten
    ++ (Version.part ['.'] Tag.toShortStr v.dev).flatten ++ (Version.part ['+'] Local.toStr v.local_).flatten := by
  simp [Version.toShortStr, join_nil]

theorem tag_short (t : Tag) : t.toShortStr = t.short ++ intStr t.value := by
  simp [Tag.toShortStr, join_nil]

/-- The phases that normalization leaves. -/
structure Version.NormalPhases (v : Version) : Prop where
  pre : ∀ t, v.pre = some t → t.phase ∈ ["alpha".toList, "beta".toList, "rc".toList]
  post : ∀ t, v.post = some t → t.phase = "post".toList
  dev : ∀ t, v.dev = some t → t.phase = "dev".toList

theorem label_part {x : LocalPart} (h : x.Canonical) (hl : ∀ s, x = .str s → ∀ c ∈ s, IsLower c ∨ IsDigit c) : Label x.toStr := by
  cases x with
  | int n => exact Or.inl (numeral_intStr h)
  | str s =>
    right
    refine ⟨hl s rfl, ?_⟩
    by_contra hc
    push Not at hc
    exact h.2 ⟨h.1.1, fun c hcs => (hl s rfl c hcs).resolve_left (hc c hcs)⟩

theorem dotted_map {α : Type} (L : PyStr → Prop) (f : α → PyStr) (l : List α) (hl : l ≠ []) (h : ∀ x ∈ l, L (f x)) :
    Dotted L (join ['.'] (l.map f)) := by
  cases l with
  | nil => exact absurd rfl hl
  | cons a l =>
    refine ⟨f a, l.map f, h a (by simp), ?_, ?_⟩
    · intro x hx
      obtain ⟨y, hy, rfl⟩ := List.mem_map.1 hx
      exact h y (by simp [hy])
    · rw [List.map_cons, join_cons]; rfl

theorem canonical_short {v : Version} (hv : v.Canonical) (hn : v.NormalPhases) (hl : v.LowerLocal) : Pep440.Canonical v.toShortStr := by
  refine ⟨_, _, _, _, _, _, short_text v, ?_, ?_, ?_, ?_, ?_, ?_⟩
  · unfold Version.epochPart Epoch.truthy
    by_cases h : v.epoch.value = 0
    · left; simp [h]
    · right
      refine ⟨intStr v.epoch.value, numeral_intStr hv.epoch, ?_, by simp [h, Epoch.toStr]⟩
      intro e
      have := number_intStr hv.epoch
      rw [e] at this
      exact h this.symm
  · exact dotted_map _ _ _ hv.valid.release (fun x hx => numeral_intStr (hv.release x hx))
  · cases h : v.pre with
    | none => left; rfl
    | some t =>
      right
      have h1 := hn.pre t h
      have aux : ∀ p ∈ ["alpha".toList, "beta".toList, "rc".toList],
          ∃ w ∈ ["a", "b", "rc"], (dictGet Phases.toShort p).getD p = w.toList := by decide +kernel
      obtain ⟨w, hw, e⟩ := aux _ h1
      refine ⟨w, hw, intStr t.value, numeral_intStr (hv.pre t h), ?_⟩
      simp [Version.part, tag_short, Tag.short, e]
  · cases h : v.post with
    | none => left; rfl
    | some t =>
      right
      refine ⟨".post", by simp, intStr t.value, numeral_intStr (hv.post t h), ?_⟩
      have e : t.short = "post".toList := by unfold Tag.short; rw [hn.post t h]; decide +kernel
      simp [Version.part, tag_short, e]
  · cases h : v.dev with
    | none => left; rfl
    | some t =>
      right
      refine ⟨".dev", by simp, intStr t.value, numeral_intStr (hv.dev t h), ?_⟩
      have e : t.short = "dev".toList := by unfold Tag.short; rw [hn.dev t h]; decide +kernel
      simp [Version.part, tag_short, e]
  · cases h : v.local_ with
    | none => left; rfl
    | some l =>
      right
      refine ⟨l.toStr, ?_, by simp [Version.part]⟩
      refine dotted_map _ _ _ (hv.valid.local_ l h) (fun x hx => label_part (hv.local_ l h x hx) ?_)
      rintro s rfl
      exact hl l h s hx

theorem opt_some {α : Type} {L : PyStr → Prop} {s : PyStr} {P : α → Prop} {f : Option α → PyStr} (h : Opt L s) (h0 : f none = [])
    (h1 : L s → ∃ x, P x ∧ f (some x) = s) : ∃ o, (∀ x, o = some x → P x) ∧ f o = s := by
  rcases h with rfl | h
  · exact ⟨none, by simp, h0⟩
  · obtain ⟨x, hx, e⟩ := h1 h
    exact ⟨some x, by rintro _ ⟨⟩; exact hx, e⟩

theorem dotted_parts {α : Type} {L : PyStr → Prop} {P : α → Prop} {f : α → PyStr} {s : PyStr} (h : Dotted L s)
    (hL : ∀ x, L x → ∃ y, P y ∧ f y = x) : ∃ l : List α, l ≠ [] ∧ (∀ y ∈ l, P y) ∧ join ['.'] (l.map f) = s := by
  obtain ⟨a, l, ha, hl, rfl⟩ := h
  choose g hg hf using hL
  have : ∃ l' : List α, (∀ y ∈ l', P y) ∧ l'.map f = l := by
    induction l with
    | nil => exact ⟨[], by simp, rfl⟩
    | cons x l ih =>
      obtain ⟨l', h1, h2⟩ := ih (fun y hy => hl y (by simp [hy]))
      refine ⟨g x (hl x (by simp)) :: l', ?_, by rw [List.map_cons, hf, h2]⟩
      intro y hy
      rcases List.mem_cons.1 hy with rfl | hy
      · exact hg _ _
      · exact h1 y hy
  obtain ⟨l', h1, rfl⟩ := this
  refine ⟨g a ha :: l', by simp, ?_, ?_⟩
  · intro y hy
    rcases List.mem_cons.1 hy with rfl | hy
    · exact hg _ _
    · exact h1 y hy
  · rw [List.map_cons, join_cons, hf]; rfl

theorem suffix_tag {cls : TagClass} {words : List String} {sep : PyStr} {phases : List PyStr} {s : PyStr} (h : Suffix words s)
    (hw : ∀ w ∈ words, ∃ p ∈ phases, p ∈ cls.phases.map String.toList ∧ sep ++ (dictGet Phases.toShort p).getD p = w.toList) :
    ∃ t : Tag, (t.Valid cls ∧ 0 ≤ t.value ∧ t.phase ∈ phases) ∧ (Version.part sep Tag.toShortStr (some t)).flatten = s := by
  obtain ⟨w, h1, n, hn, rfl⟩ := h
  obtain ⟨p, h2, h3, h4⟩ := hw w h1
  refine ⟨⟨p, number n⟩, ⟨?_, by simp, h2⟩, ?_⟩
  · exact valid_of_mem h3
  · simp [Version.part, tag_short, Tag.short, ← h4, intStr_number hn]

theorem label_local {s : PyStr} (h : Label s) :
    ∃ x : LocalPart, (x.Canonical ∧ ∀ t, x = .str t → ∀ c ∈ t, IsLower c ∨ IsDigit c) ∧ x.toStr = s := by
  rcases h with h | ⟨h1, c, hc, h2⟩
  · exact ⟨.int (number s), ⟨by show (0 : Int) ≤ _; simp, by rintro _ ⟨⟩⟩, intStr_number h⟩
  · refine ⟨.str s, ⟨⟨⟨by rintro rfl; simp at hc, fun c hc => ?_⟩, fun hd => ?_⟩, ?_⟩, rfl⟩
    · refine (h1 c hc).imp_left (fun h => ?_)
      unfold IsLetter
      have e : foldCase c = c := by
        have e1 : ¬ ('A' ≤ c ∧ c ≤ 'Z') := fun h' => absurd (Char.le_trans h.1 h'.2) (by decide)
        have e2 : c ≠ '\u0130' ∧ c ≠ '\u0131' ∧ c ≠ '\u017f' ∧ c ≠ '\u212a' := by
          refine ⟨?_, ?_, ?_, ?_⟩ <;> rintro rfl <;> exact absurd h.2 (by decide)
        simp [foldCase, e1, e2]
      rw [e]
      exact h
    · have := hd.2 c hc
      exact absurd (Char.le_trans h2.1 this.2) (by decide)
    · rintro _ ⟨⟩; exact h1

theorem version_of_canonical {s : PyStr} (h : Pep440.Canonical s) :
    ∃ v : Version, v.Canonical ∧ v.NormalPhases ∧ v.LowerLocal ∧ v.toShortStr = s := by
  obtain ⟨e, r, p, q, d, l, rfl, he, hr, hp, hq, hd, hl⟩ := h
  have h1 : ∃ x : Epoch, 0 ≤ x.value ∧ (Version.epochPart x).flatten = e := by
    rcases he with rfl | ⟨n, hn, h0, rfl⟩
    · exact ⟨{}, by decide, rfl⟩
    · refine ⟨⟨number n⟩, by simp, ?_⟩
      have := mt (numeral_zero hn).1 h0
      simp [Version.epochPart, Epoch.truthy, this, Epoch.toStr, intStr_number hn]
  have h2 := dotted_parts (P := fun n : Int => 0 ≤ n) (f := intStr) hr (fun x hx => ⟨number x, by simp, intStr_number hx⟩)
  have h3 := opt_some (f := fun o => (Version.part [] Tag.toShortStr o).flatten) hp rfl
    (fun h => suffix_tag (cls := .pre) (phases := ["alpha".toList, "beta".toList, "rc".toList]) h (by decide +kernel))
  have h4 := opt_some (f := fun o => (Version.part ['.'] Tag.toShortStr o).flatten) hq rfl
    (fun h => suffix_tag (cls := .post) (phases := ["post".toList]) h (by decide +kernel))
  have h5 := opt_some (f := fun o => (Version.part ['.'] Tag.toShortStr o).flatten) hd rfl
    (fun h => suffix_tag (cls := .dev) (phases := ["dev".toList]) h (by decide +kernel))
  have h6 := opt_some (f := fun o => (Version.part ['+'] Local.toStr o).flatten)
    (P := fun x : Local => x.parts ≠ [] ∧ ∀ y ∈ x.parts, y.Canonical ∧ ∀ t, y = .str t → ∀ c ∈ t, IsLower c ∨ IsDigit c) hl rfl (by
      rintro ⟨x, hx, rfl⟩
      obtain ⟨m, h1, h2, rfl⟩ := dotted_parts hx (fun _ h => label_local h)
      exact ⟨⟨m⟩, ⟨h1, h2⟩, by simp [Version.part, Local.toStr]⟩)
  clear he hr hp hq hd hl
  obtain ⟨e, he, rfl⟩ := h1
  obtain ⟨r, hr0, hr, rfl⟩ := h2
  obtain ⟨p, hp, rfl⟩ := h3
  obtain ⟨q, hq, rfl⟩ := h4
  obtain ⟨d, hd, rfl⟩ := h5
  obtain ⟨l, hl, rfl⟩ := h6
  refine ⟨⟨e, ⟨r⟩, p, q, d, l⟩, ⟨⟨hr0, fun t h => (hp t h).1, fun t h => (hq t h).1, fun t h => (hd t h).1, fun x h => (hl x h).1⟩, he, hr,
      fun t h => (hp t h).2.1, fun t h => (hq t h).2.1, fun t h => (hd t h).2.1, fun x h y hy => ((hl x h).2 y hy).1⟩,
    ⟨fun t h => (hp t h).2.2, fun t h => ?_, fun t h => ?_⟩, fun x h t ht => ((hl x h).2 _ ht).2 t rfl, short_text _⟩
  · simpa using (hq t h).2.2
  · simpa using (hd t h).2.2

end Verif
