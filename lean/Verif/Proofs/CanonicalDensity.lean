import Verif.Proofs.SetLevel
import Verif.Spec.Spelling
/-!
# Canonical versions: density, and the least one
-/
set_option linter.unusedSimpArgs false

namespace Verif
open scoped Verif

theorem letter_above {c : Char} (h : IsLetter c) : '0'.toNat < c.toNat := by
  by_contra hc
  have hc : c.toNat ≤ 48 := Nat.not_lt.1 hc
  have h1 : foldCase c = c := by
    unfold foldCase
    rw [if_neg, if_neg, if_neg, if_neg]
    · rintro rfl; exact absurd hc (by decide)
    · rintro rfl; exact absurd hc (by decide)
    · rintro (rfl | rfl) <;> exact absurd hc (by decide)
    · rintro ⟨h, -⟩
      have : 65 ≤ c.toNat := h
      omega
  have h2 : 97 ≤ (foldCase c).toNat := h.1
  rw [h1] at h2
  omega

theorem digit_above {c : Char} (h : IsDigit c) : '0'.toNat ≤ c.toNat := h.1

theorem alnum_above {s : PyStr} (h : AlphaNum s ∧ ¬ Digits s) :
    (∀ c ∈ s, '0'.toNat ≤ c.toNat) ∧ ∃ c ∈ s, '0'.toNat < c.toNat := by
  obtain ⟨⟨h1, h2⟩, h3⟩ := h
  constructor
  · intro c hc
    rcases h2 c hc with h | h
    · exact le_of_lt (letter_above h)
    · exact digit_above h
  · by_contra hn
    apply h3
    refine ⟨h1, fun c hc => ?_⟩
    rcases h2 c hc with h | h
    · exact absurd ⟨c, hc, letter_above h⟩ hn
    · exact h

/-- Below any canonical local part there is another. -/
theorem exists_canonical_part_below (y : LocalPart) (hy : y.Canonical) : ∃ x : LocalPart, x.Canonical ∧ localPartKey x < localPartKey y := by
  cases y with
  | int n =>
    refine ⟨.str ['a'], ⟨⟨by simp, by decide⟩, fun h => absurd (h.2 'a' (by simp)) (by decide)⟩, ?_⟩
    unfold localPartKey
    rw [Prod.Lex.toLex_lt_toLex]
    left; exact extKey_negInf_lt_fin _ _
  | str s =>
    obtain ⟨h1, h2⟩ := alnum_above hy
    refine ⟨.str ('0' :: s), ⟨⟨by simp, ?_⟩, ?_⟩, ?_⟩
    · intro c hc
      rcases List.mem_cons.1 hc with rfl | hc
      · exact Or.inr (by decide)
      · exact hy.1.2 c hc
    · intro hd
      exact hy.2 ⟨hy.1.1, fun c hc => hd.2 c (by simp [hc])⟩
    · unfold localPartKey
      rw [Prod.Lex.toLex_lt_toLex]
      exact .inr ⟨rfl, zero_cons_lt h1 h2⟩

theorem exists_canonical_append_lt (la : List LocalPart) : ∀ lb : List LocalPart, (∀ p ∈ lb, p.Canonical) →
    la.map localPartKey < lb.map localPartKey →
    ∃ x : LocalPart, x.Canonical ∧ (la ++ [x]).map localPartKey < lb.map localPartKey := by
  induction la with
  | nil =>
    intro lb hw h
    cases lb with
    | nil => simp at h
    | cons y ys =>
      obtain ⟨x, hx, hxy⟩ := exists_canonical_part_below y (hw y (by simp))
      refine ⟨x, hx, ?_⟩
      simp only [List.nil_append, List.map_cons, List.map_nil]
      rw [List.cons_lt_cons_iff]
      exact .inl hxy
  | cons z la ih =>
    intro lb hw h
    cases lb with
    | nil => simp at h
    | cons y ys =>
      simp only [List.map_cons] at h
      rw [List.cons_lt_cons_iff] at h
      rcases h with h | ⟨h1, h2⟩
      · refine ⟨.int 0, le_refl (0 : Int), ?_⟩
        simp only [List.cons_append, List.map_cons]
        rw [List.cons_lt_cons_iff]
        exact .inl h
      · obtain ⟨x, hx, hx'⟩ := ih ys (fun p hp => hw p (by simp [hp])) h2
        refine ⟨x, hx, ?_⟩
        simp only [List.cons_append, List.map_cons]
        rw [List.cons_lt_cons_iff]
        exact .inr ⟨h1, hx'⟩

theorem canonical_with_local {a : Version} (h : a.Canonical) (l : List LocalPart) (hl : l ≠ []) (hw : ∀ p ∈ l, p.Canonical) :
    ({ a with local_ := some ⟨l⟩ } : Version).Canonical := by
  refine ⟨⟨h.valid.release, h.valid.pre, h.valid.post, h.valid.dev, ?_⟩, h.epoch, h.release, h.pre, h.post, h.dev, ?_⟩
  · rintro l' ⟨rfl⟩; exact hl
  · rintro l' ⟨rfl⟩; exact hw

/-- Between two canonical versions there is another. It differs from the first in the local segment only. -/
theorem exists_canonical_between {a b : Version} (ha : a.Canonical) (hb : b.Canonical) (h : a.key < b.key) :
    ∃ l : Local, ({ a with local_ := some l } : Version).Canonical ∧ a.key < ({ a with local_ := some l } : Version).key ∧
      ({ a with local_ := some l } : Version).key < b.key := by
  cases hla : a.local_ with
  | none =>
    rcases local_change_lt a b h with h' | ⟨h1, h2⟩
    · refine ⟨⟨[.int 0]⟩, canonical_with_local ha _ (by simp) (by simp [LocalPart.Canonical]), ?_, h' _⟩
      rw [key_lt_local, hla]
      exact extKey_negInf_lt_fin _ _
    · rw [hla] at h1
      cases hlb : b.local_ with
      | none => rw [hlb] at h1; exact absurd h1 (lt_irrefl _)
      | some lb =>
        obtain ⟨x, hx, hx'⟩ := exists_canonical_append_lt [] lb.parts (hb.local_ lb hlb) (by
          cases hp : lb.parts with
          | nil => exact absurd hp (hb.valid.local_ lb hlb)
          | cons y ys => simp)
        refine ⟨⟨[x]⟩, canonical_with_local ha _ (by simp) (by simpa using hx), ?_, ?_⟩
        · rw [key_lt_local, hla]; exact extKey_negInf_lt_fin _ _
        · apply h2
          rw [hlb]
          exact (extKey_fin_lt_fin _ _ _).2 hx'
  | some la =>
    have hwa : ∀ (x : LocalPart), x.Canonical → ({ a with local_ := some ⟨la.parts ++ [x]⟩ } : Version).Canonical := by
      intro x hx
      refine canonical_with_local ha _ (by simp) ?_
      intro p hp
      rcases List.mem_append.1 hp with hp | hp
      · exact ha.local_ la hla p hp
      · simp at hp; subst hp; exact hx
    have hgt : ∀ x, a.key < ({ a with local_ := some ⟨la.parts ++ [x]⟩ } : Version).key := by
      intro x
      rw [key_lt_local, hla]
      refine (extKey_fin_lt_fin _ _ _).2 ?_
      simp only [Local.key, List.map_append, List.map_cons, List.map_nil]
      exact lt_append_one _ _
    rcases local_change_lt a b h with h' | ⟨h1, h2⟩
    · exact ⟨_, hwa (.int 0) (le_refl (0 : Int)), hgt _, h' _⟩
    · rw [hla] at h1
      cases hlb : b.local_ with
      | none =>
        rw [hlb] at h1
        exact absurd h1 (not_lt_of_gt (extKey_negInf_lt_fin _ _))
      | some lb =>
        rw [hlb] at h1
        obtain ⟨x, hx, hx'⟩ := exists_canonical_append_lt la.parts lb.parts (hb.local_ lb hlb) ((extKey_fin_lt_fin _ _ _).1 h1)
        refine ⟨_, hwa x hx, hgt x, ?_⟩
        apply h2
        rw [hlb]
        exact (extKey_fin_lt_fin _ _ _).2 hx'

/-- `0.dev0`. -/
def leastVersion : Version := { release := ⟨[0]⟩, dev := some ⟨"dev".toList, 0⟩ }

theorem least_canonical : leastVersion.Canonical := by
  refine ⟨⟨by simp [leastVersion], by simp [leastVersion], by simp [leastVersion], ?_, by simp [leastVersion]⟩, by decide, ?_,
    by simp [leastVersion], by simp [leastVersion], ?_, by simp [leastVersion]⟩
  · rintro t ⟨⟩
    exact ⟨"dev", by simp [TagClass.phases], rfl⟩
  · intro x hx
    simp [leastVersion] at hx
    omega
  · rintro t ⟨⟩
    exact le_refl (0 : Int)

theorem release_part_nonneg {r : Release} (h : r.NonNeg) (j : Nat) : 0 ≤ r.part j := by
  unfold Release.part
  rw [List.getD_eq_getElem?_getD]
  cases e : r.parts[j]? with
  | none => simp
  | some x => exact h x (List.mem_of_getElem? e)

theorem least_le {v : Version} (hv : v.Canonical) : leastVersion.key ≤ v.key := by
  by_contra h
  rw [not_le, key_lt_iff, compareParts_lt_iff _ _ hv.valid.release least_canonical.valid.release hv.release least_canonical.release] at h
  have z : ∀ j, leastVersion.release.part j = 0 := by
    intro j
    cases j with
    | zero => rfl
    | succ j => rfl
  rcases h with h | ⟨-, h | ⟨-, h | ⟨e3, h | ⟨-, h | ⟨-, h⟩⟩⟩⟩⟩
  · exact absurd hv.epoch (not_le.2 h)
  · obtain ⟨j, -, hj⟩ := h
    rw [z] at hj
    exact absurd (release_part_nonneg hv.release j) (not_le.2 hj)
  · exact absurd h not_lt_bot
  · exact absurd h not_lt_bot
  · cases hd : v.dev with
    | none =>
      rw [hd] at h
      exact absurd h (not_lt_of_gt (extKey_fin_lt_posInf _ _))
    | some t =>
      rw [hd] at h
      have h := (extKey_fin_lt_fin _ _ _).1 h
      rw [tagKey_lt] at h
      have h1 := valid_mem (hv.valid.dev t hd)
      simp only [TagClass.phases, List.map_cons, List.map_nil, List.mem_singleton] at h1
      rw [h1] at h
      rcases h with h | ⟨-, h⟩
      · exact absurd h (lt_irrefl _)
      · exact absurd (hv.dev t hd) (not_le.2 h)
  · exact absurd h not_lt_bot

/-- A cut at a canonical version or at infinity. -/
def CanonicalCut (c : Cut) : Prop := c = ⊥ ∨ c = ⊤ ∨ ∃ (v : Version) (b : Bool), v.Canonical ∧ c = cutAt v b

/-- Between any two such cuts, from the least canonical version on, there is a canonical version. -/
theorem exists_canonical_between_cuts {c d : Cut} (hc : CanonicalCut c) (hd : CanonicalCut d) (h0 : cutAt leastVersion false ≤ c) (h : c < d) :
    ∃ v : Version, v.Canonical ∧ c ≤ cut v ∧ cut v < d := by
  rcases hc with rfl | rfl | ⟨a, x, ha, rfl⟩
  · exact absurd (le_bot_iff.1 h0) (bot_lt_cutAt _ _).ne'
  · exact absurd h not_top_lt
  · cases x with
    | false => exact ⟨a, ha, le_rfl, h⟩
    | true =>
      rcases hd with rfl | rfl | ⟨b, y, hb, rfl⟩
      · exact absurd h not_lt_bot
      · refine ⟨{ a with epoch := ⟨a.epoch.value + 1⟩ }, ⟨⟨ha.valid.1, ha.valid.2, ha.valid.3, ha.valid.4, ha.valid.5⟩,
          by have := ha.epoch; show (0 : Int) ≤ a.epoch.value + 1; omega, ha.release, ha.pre, ha.post, ha.dev, ha.local_⟩, ?_, cutAt_lt_top _ _⟩
        refine (cutAt_le _ _ _ _).2 (.inl ?_)
        rw [key_lt_iff]; left; simp only; omega
      · have hab : a.key < b.key := by
          rw [cutAt_lt] at h
          rcases h with h | h
          · exact h
          · simp at h
        obtain ⟨l, hv, h1, h2⟩ := exists_canonical_between ha hb hab
        exact ⟨_, hv, (cutAt_le _ _ _ _).2 (.inl h1), (cutAt_lt _ _ _ _).2 (.inl h2)⟩

/-- The ends are canonical versions. -/
def Item.Canonical (i : Item) : Prop := (∀ v, i.min = some v → v.Canonical) ∧ ∀ v, i.max = some v → v.Canonical

theorem Item.Canonical.lo {i : Item} (h : i.Canonical) : CanonicalCut i.lo := by
  unfold Item.lo
  cases hm : i.min with
  | none => exact .inl rfl
  | some v => exact .inr (.inr ⟨v, _, h.1 v hm, rfl⟩)

theorem Item.Canonical.hi {i : Item} (h : i.Canonical) : CanonicalCut i.hi := by
  unfold Item.hi
  cases hm : i.max with
  | none => exact .inr (.inl rfl)
  | some v => exact .inr (.inr ⟨v, _, h.2 v hm, rfl⟩)

/-- Around an uncovered cut there is an uncovered interval whose ends are among those of the items. -/
theorem exists_hole_of (G : Cut → Prop) (xs : List Item) (hw : ∀ x ∈ xs, G x.lo ∧ G x.hi) (c : Cut) : ∀ lo hi : Cut, G lo → G hi → lo ≤ c → c < hi →
    ¬ Cov xs c → ∃ lo' hi', G lo' ∧ G hi' ∧ lo ≤ lo' ∧ lo' ≤ c ∧ c < hi' ∧ hi' ≤ hi ∧
      ∀ x ∈ xs, x.hi ≤ lo' ∨ hi' ≤ x.lo := by
  induction xs with
  | nil => intro lo hi gl gh h1 h2 _; exact ⟨lo, hi, gl, gh, le_rfl, h1, h2, le_rfl, fun x hx => by cases hx⟩
  | cons x xs ih =>
    intro lo hi gl gh h1 h2 hno
    rw [cov_cons, not_or, not_and_or, not_le, not_lt] at hno
    obtain ⟨l, h, g1, g2, g3, g4, g5, g6, g7⟩ := ih (fun y hy => hw y (by simp [hy])) lo hi gl gh h1 h2 hno.2
    rcases hno.1 with hx | hx
    · by_cases hc : x.lo < h
      · refine ⟨l, x.lo, g1, (hw x (by simp)).1, g3, g4, hx, by order, ?_⟩
        intro y hy
        rcases List.mem_cons.1 hy with rfl | hy
        · exact .inr le_rfl
        · rcases g7 y hy with g | g
          · exact .inl g
          · exact .inr (by order)
      · refine ⟨l, h, g1, g2, g3, g4, g5, g6, ?_⟩
        intro y hy
        rcases List.mem_cons.1 hy with rfl | hy
        · exact .inr (not_lt.1 hc)
        · exact g7 y hy
    · by_cases hc : l < x.hi
      · refine ⟨x.hi, h, (hw x (by simp)).2, g2, by order, hx, g5, g6, ?_⟩
        intro y hy
        rcases List.mem_cons.1 hy with rfl | hy
        · exact .inl le_rfl
        · rcases g7 y hy with g | g
          · exact .inl (by order)
          · exact .inr g
      · refine ⟨l, h, g1, g2, g3, g4, g5, g6, ?_⟩
        intro y hy
        rcases List.mem_cons.1 hy with rfl | hy
        · exact .inl (not_lt.1 hc)
        · exact g7 y hy

/-- Below the least canonical version, all cuts but the infinite one are alike. -/
theorem cov_below {xs : List Item} (hx : ∀ x ∈ xs, x.Canonical) {c : Cut} (hc : c < cutAt leastVersion false) :
    Cov xs c ↔ ∃ x ∈ xs, x.min = none := by
  constructor
  · rintro ⟨x, hm, h1, h2⟩
    refine ⟨x, hm, ?_⟩
    cases e : x.min with
    | none => rfl
    | some v =>
      have h3 : cutAt leastVersion false ≤ x.lo := by
        unfold Item.lo
        rw [e]
        refine (cutAt_le _ _ _ _).2 ?_
        rcases lt_or_eq_of_le (least_le ((hx x hm).1 v e)) with h | h
        · exact .inl h
        · exact .inr ⟨h, by simp⟩
      order
  · rintro ⟨x, hm, e⟩
    refine ⟨x, hm, ?_, ?_⟩
    · unfold Item.lo
      rw [e]
      exact bot_le
    · unfold Item.hi
      cases e' : x.max with
      | none => exact lt_trans hc (cutAt_lt_top _ _)
      | some v =>
        refine lt_of_lt_of_le hc ?_
        refine (cutAt_le _ _ _ _).2 ?_
        rcases lt_or_eq_of_le (least_le ((hx x hm).2 v e')) with h | h
        · exact .inl h
        · exact .inr ⟨h, by simp⟩

/-- Canonical versions tell sets apart, from the least one on. -/
theorem cov_of_canonical {xs ys : List Item} (hwx : ∀ x ∈ xs, x.Canonical) (hwy : ∀ y ∈ ys, y.Canonical) :
    (∀ c, Cov ys c → Cov xs c) ↔
      (∀ v : Version, v.Canonical → Cov ys (cut v) → Cov xs (cut v)) ∧ ((∃ y ∈ ys, y.min = none) → ∃ x ∈ xs, x.min = none) := by
  have hbot : (⊥ : Cut) < cutAt leastVersion false := bot_lt_cutAt _ _
  constructor
  · intro h
    exact ⟨fun v _ hv => h _ hv, fun hv => (cov_below hwx hbot).1 (h ⊥ ((cov_below hwy hbot).2 hv))⟩
  · rintro ⟨h, hb⟩ c hc
    by_cases hlow : c < cutAt leastVersion false
    · exact (cov_below hwx hlow).2 (hb ((cov_below hwy hlow).1 hc))
    · obtain ⟨y, hy, h1, h2⟩ := hc
      rw [not_lt] at hlow
      by_contra hno
      have hG : ∀ x ∈ xs, CanonicalCut x.lo ∧ CanonicalCut x.hi := fun x hx => ⟨(hwx x hx).lo, (hwx x hx).hi⟩
      have gl : CanonicalCut (max y.lo (cutAt leastVersion false)) := by
        rcases le_total y.lo (cutAt leastVersion false) with e | e
        · rw [max_eq_right e]
          exact .inr (.inr ⟨_, _, least_canonical, rfl⟩)
        · rw [max_eq_left e]
          exact (hwy y hy).lo
      obtain ⟨lo, hi, g1, g2, g3, g4, g5, g6, g7⟩ := exists_hole_of CanonicalCut xs hG c _ y.hi gl (hwy y hy).hi (max_le h1 hlow) h2 hno
      have g3' : y.lo ≤ lo := le_trans (le_max_left _ _) g3
      obtain ⟨v, hv, v1, v2⟩ := exists_canonical_between_cuts g1 g2 (le_trans (le_max_right _ _) g3) (by order)
      obtain ⟨x, hx, x1, x2⟩ := h v hv ⟨y, hy, by order, by order⟩
      rcases g7 x hx with g | g <;> order

end Verif
