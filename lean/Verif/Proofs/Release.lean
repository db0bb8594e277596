import Mathlib.Data.Nat.Find
import Mathlib.Data.List.Induction
import Verif.Proofs.Order
import Verif.Spec.Basic
/-!
# Lemmas on releases
-/
set_option linter.unusedSimpArgs false

namespace Verif

/-! ## Trailing zeros -/

def stripZ (l : List Int) : List Int := (l.reverse.dropWhile (fun x => decide (x = 0))).reverse

theorem countLeadingZeros_le (l : List Int) : countLeadingZeros l ≤ l.length := by
  induction l with
  | nil => simp [countLeadingZeros]
  | cons x xs ih => simp only [countLeadingZeros]; split <;> simp; omega

theorem dropWhile_zero_eq (l : List Int) :
    l.dropWhile (fun x => decide (x = 0)) = l.drop (countLeadingZeros l) := by
  induction l with
  | nil => simp
  | cons x xs ih =>
    by_cases h : x = 0 <;> simp [countLeadingZeros, h, ih]

theorem stripZ_eq_take (l : List Int) : stripZ l = l.take (l.length - countLeadingZeros l.reverse) := by
  unfold stripZ
  rw [dropWhile_zero_eq, List.drop_reverse, List.reverse_reverse]

theorem clz_all (l : List Int) : countLeadingZeros l = l.length ↔ ∀ x ∈ l, x = 0 := by
  induction l with
  | nil => simp [countLeadingZeros]
  | cons x xs ih =>
    by_cases h : x = 0
    · simp [countLeadingZeros, h, ih]
    · simp [countLeadingZeros, h]

theorem compareParts_eq (r : Release) (h : r.parts ≠ []) :
    r.compareParts = if stripZ r.parts = [] then [0] else stripZ r.parts := by
  obtain ⟨l⟩ := r
  simp only at h
  have hlen : 0 < l.length := List.length_pos_iff.2 h
  have hle := countLeadingZeros_le l.reverse
  rw [List.length_reverse] at hle
  rw [stripZ_eq_take]
  unfold Release.compareParts Release.sliceParts Release.precision pySliceTo
  simp only
  by_cases hc : countLeadingZeros l.reverse = l.length
  · have hz : ∀ x ∈ l, x = 0 := by
      have := (clz_all l.reverse).1 (by simpa using hc)
      simpa using this
    rw [hc]
    simp only [if_true]
    obtain ⟨x, xs, rfl⟩ := List.exists_cons_of_ne_nil h
    have hx : x = 0 := hz x (by simp)
    subst hx
    by_cases hn : xs = []
    · subst hn; simp
    · have : 0 < xs.length := List.length_pos_iff.2 hn
      simp only [List.length_cons, Nat.add_sub_cancel]
      rw [if_pos (by omega), if_neg (by omega)]
      have : (((xs.length + 1 : Nat) : Int) + -(xs.length : Int)).toNat = 1 := by omega
      rw [this]
      simp
  · rw [if_neg hc]
    by_cases h0 : countLeadingZeros l.reverse = 0
    · simp [h0, h]
    · have e : ((l.length : Int) + -(countLeadingZeros l.reverse : Int)).toNat
          = l.length - countLeadingZeros l.reverse := by omega
      rw [if_pos h0, if_neg (by omega), e, if_neg]
      show l.take _ ≠ []
      rw [← List.length_pos_iff, List.length_take]
      omega

theorem stripZ_getD (l : List Int) (i : Nat) : (stripZ l).getD i 0 = l.getD i 0 := by
  unfold stripZ
  induction l using List.reverseRecOn with
  | nil => simp
  | append_singleton xs x ih =>
    by_cases hx : x = 0
    · subst hx
      simp only [List.reverse_append, List.reverse_cons, List.reverse_nil, List.nil_append, List.singleton_append]
      rw [List.dropWhile_cons_of_pos (by simp), ih]
      simp only [List.getD_eq_getElem?_getD, List.getElem?_append]
      split
      · rfl
      · rename_i hi
        rw [List.getElem?_eq_none (by omega)]
        rcases h : i - xs.length with _ | k <;> simp
    · simp [hx]

theorem compareParts_getD (r : Release) (h : r.parts ≠ []) (i : Nat) : r.compareParts.getD i 0 = r.part i := by
  rw [compareParts_eq r h, Release.part, ← stripZ_getD r.parts]
  split
  · rename_i h0; rw [h0]; cases i <;> simp
  · rfl

theorem stripZ_last (l : List Int) (h : stripZ l ≠ []) : (stripZ l).getLast h ≠ 0 := by
  unfold stripZ at h ⊢
  rw [List.getLast_reverse]
  simp only [ne_eq, List.reverse_eq_nil_iff] at h
  have := List.head_dropWhile_not (fun x : Int => decide (x = 0)) h
  simpa using this

/-- Lists without trailing zeros are equal if they agree with endless zeros. -/
theorem eq_of_getD_eq (a b : List Int) (ha : ∀ h : a ≠ [], a.getLast h ≠ 0) (hb : ∀ h : b ≠ [], b.getLast h ≠ 0)
    (h : ∀ i, a.getD i 0 = b.getD i 0) : a = b := by
  have key : ∀ a b : List Int, (∀ h : b ≠ [], b.getLast h ≠ 0) → (∀ i, a.getD i 0 = b.getD i 0) →
      ¬ a.length < b.length := by
    intro a b hb h hlt
    have hne : b ≠ [] := by rintro rfl; simp at hlt
    apply hb hne
    have := h (b.length - 1)
    rw [List.getD_eq_getElem?_getD, List.getElem?_eq_none (by omega)] at this
    rw [List.getLast_eq_getElem]
    rw [List.getD_eq_getElem?_getD, List.getElem?_eq_getElem (by omega)] at this
    simpa using this.symm
  have hl : a.length = b.length := by
    have h1 := key a b hb h
    have h2 := key b a ha (fun i => (h i).symm)
    omega
  apply List.ext_getElem hl
  intro i h1 h2
  have := h i
  simpa [List.getD_eq_getElem?_getD, List.getElem?_eq_getElem, h1, h2] using this

theorem compareParts_eq_iff (a b : Release) (ha : a.parts ≠ []) (hb : b.parts ≠ []) :
    a.compareParts = b.compareParts ↔ ∀ i, a.part i = b.part i := by
  constructor
  · intro h i
    rw [← compareParts_getD a ha, ← compareParts_getD b hb, h]
  · intro h
    have : stripZ a.parts = stripZ b.parts := by
      apply eq_of_getD_eq _ _ (stripZ_last _) (stripZ_last _)
      intro i
      rw [stripZ_getD, stripZ_getD]
      exact h i
    rw [compareParts_eq a ha, compareParts_eq b hb, this]

theorem lt_of_padded_lt (xs ys : List Int) (hx : ∀ x ∈ xs, 0 ≤ x) (i : Nat)
    (h : ∀ j < i, xs.getD j 0 = ys.getD j 0) (hi : xs.getD i 0 < ys.getD i 0) : xs < ys := by
  induction xs generalizing ys i with
  | nil => cases ys with
    | nil => simp at hi
    | cons y ys => simp
  | cons x xs ih =>
    cases ys with
    | nil =>
      exfalso
      have : 0 ≤ (x :: xs).getD i 0 := by
        rw [List.getD_eq_getElem?_getD]
        cases hget : (x :: xs)[i]? with
        | none => simp
        | some y => exact hx _ (List.mem_of_getElem? hget)
      simp only [List.getD_nil] at hi
      omega
    | cons y ys =>
      rw [List.cons_lt_cons_iff]
      cases i with
      | zero => left; simpa using hi
      | succ i =>
        right
        refine ⟨by simpa using h 0 (by omega), ih ys (fun z hz => hx z (by simp [hz])) i ?_ (by simpa using hi)⟩
        intro j hj
        simpa using h (j + 1) (by omega)

theorem stripZ_subset (l : List Int) : ∀ x ∈ stripZ l, x ∈ l := by
  intro x hx
  rw [stripZ_eq_take] at hx
  exact List.mem_of_mem_take hx

theorem compareParts_nonneg (r : Release) (h : r.parts ≠ []) (hn : r.NonNeg) : ∀ x ∈ r.compareParts, 0 ≤ x := by
  intro x hx
  rw [compareParts_eq r h] at hx
  split at hx
  · simp at hx; omega
  · exact hn x (stripZ_subset _ x hx)

/-- Only the smaller release has to be free of negative parts. -/
theorem compareParts_lt_of_below (a b : Release) (ha : a.parts ≠ []) (hb : b.parts ≠ []) (hn : a.NonNeg)
    (h : a.Below b) : a.compareParts < b.compareParts := by
  obtain ⟨i, h1, h2⟩ := h
  apply lt_of_padded_lt _ _ (compareParts_nonneg a ha hn) i
  · intro j hj; rw [compareParts_getD a ha, compareParts_getD b hb]; exact h1 j hj
  · rw [compareParts_getD a ha, compareParts_getD b hb]; exact h2

theorem below_trichotomy (a b : Release) : a.Below b ∨ (∀ i, a.part i = b.part i) ∨ b.Below a := by
  by_cases h : ∀ i, a.part i = b.part i
  · exact Or.inr (Or.inl h)
  · have hex : ∃ i, a.part i ≠ b.part i := by
      by_contra hc
      exact h (fun i => by by_contra hi; exact hc ⟨i, hi⟩)
    classical
    have hm := fun j hj => not_not.1 (Nat.find_min (m := j) hex hj)
    rcases lt_or_gt_of_ne (Nat.find_spec hex) with hlt | hgt
    · exact Or.inl ⟨_, hm, hlt⟩
    · exact Or.inr (Or.inr ⟨_, fun j hj => (hm j hj).symm, hgt⟩)

theorem compareParts_lt_iff (a b : Release) (ha : a.parts ≠ []) (hb : b.parts ≠ []) (hna : a.NonNeg)
    (hnb : b.NonNeg) : a.compareParts < b.compareParts ↔ a.Below b := by
  constructor
  · intro h
    rcases below_trichotomy a b with h1 | h1 | h1
    · exact h1
    · rw [(compareParts_eq_iff a b ha hb).2 h1] at h
      exact absurd h (lt_irrefl _)
    · exact absurd (lt_trans h (compareParts_lt_of_below b a hb ha hnb h1)) (lt_irrefl _)
  · exact compareParts_lt_of_below a b ha hb hna

/-! ## Reading and writing parts -/

theorem pyIndex_nat (n i : Nat) : pyIndex n (i : Int) = if i < n then some i else none := by
  simp only [pyIndex]
  rw [if_pos (by omega)]
  by_cases h : i < n
  · rw [if_pos (by omega), if_pos h]; simp
  · rw [if_neg (by omega), if_neg h]

theorem create_ok {l : List Int} (h : l ≠ []) : Release.create l = .ok ⟨l⟩ := by
  simp [Release.create, h]

theorem getAt_nat (r : Release) (i : Nat) (d : Int) :
    r.getAt i d = .ok (if i < r.precision then r.part i else d) := by
  unfold Release.getAt Release.hasAt Release.getAtUnchecked pyGet Release.precision Release.part
  rw [pyIndex_nat]
  by_cases h : i < r.parts.length
  · simp [h]
  · simp [h]

theorem fixToLength_getD (n : Nat) (l : List Int) (h : l.length ≤ n) (i : Nat) :
    (fixToLength n 0 l).getD i 0 = l.getD i 0 := by
  unfold fixToLength
  simp only [List.getD_eq_getElem?_getD, List.getElem?_take, List.getElem?_append, List.getElem?_replicate]
  by_cases h1 : i < l.length
  · rw [if_pos (by omega), if_pos h1]
  · rw [if_neg h1, List.getElem?_eq_none (by omega : l.length ≤ i)]
    split <;> [split <;> rfl; rfl]

theorem fixToLength_length (n : Nat) (p : Int) (l : List Int) : (fixToLength n p l).length = n := by
  unfold fixToLength; simp

/-- `pad_to` with zeros never fails, gives at least the length, and changes no part. -/
theorem padTo_ok (r : Release) (h : r.parts ≠ []) (n : Int) :
    ∃ q, r.padTo n = .ok q ∧ (q.precision : Int) = max (r.precision : Int) n ∧ (∀ i, q.part i = r.part i) := by
  unfold Release.padTo
  by_cases hlt : (r.precision : Int) < n
  · rw [if_pos hlt]
    have hl : r.parts.length ≤ n.toNat := by unfold Release.precision at hlt; omega
    have hlen := fixToLength_length n.toNat 0 r.parts
    have hp : 0 < r.parts.length := List.length_pos_iff.2 h
    refine ⟨⟨fixToLength n.toNat 0 r.parts⟩, create_ok ?_, ?_, ?_⟩
    · rw [← List.length_pos_iff]; omega
    · simp only [Release.precision, hlen] at hlt ⊢; omega
    · intro i; exact fixToLength_getD _ _ hl i
  · rw [if_neg hlt]
    exact ⟨r, rfl, by omega, fun _ => rfl⟩

theorem precision_pos_iff (r : Release) : 0 < r.precision ↔ r.parts ≠ [] := List.length_pos_iff

theorem setAtUnchecked_nat (r : Release) (i : Nat) (x : Int) :
    r.setAtUnchecked i x = if i < r.precision then .ok ⟨r.parts.set i x⟩ else .error .indexError := by
  unfold Release.setAtUnchecked pySet Release.precision
  rw [pyIndex_nat]
  by_cases h : i < r.parts.length
  · have : r.parts.set i x ≠ [] := by rw [← List.length_pos_iff, List.length_set]; omega
    rw [if_pos h, if_pos h]
    simp [bind, Except.bind, create_ok this]
  · simp [h, bind, Except.bind]

theorem part_set (l : List Int) (i j : Nat) (x : Int) (h : i < l.length) :
    (l.set i x).getD j 0 = if j = i then x else l.getD j 0 := by
  simp only [List.getD_eq_getElem?_getD, List.getElem?_set]
  by_cases hj : j = i
  · subst hj; simp [h]
  · rw [if_neg (fun e => hj e.symm), if_neg hj]

/-- `set_at` at a non-negative index. -/
theorem setAt_nat (r : Release) (h : r.parts ≠ []) (i : Nat) (x : Int) :
    ∃ q, r.setAt i x = .ok q ∧ q.precision = max r.precision (i + 1) ∧
      (∀ j, q.part j = if j = i then x else r.part j) := by
  unfold Release.setAt Release.padToIndex increment
  obtain ⟨q, hq, hp, hg⟩ := padTo_ok r h ((i : Int) + 1)
  rw [hq]
  simp only [bind, Except.bind]
  rw [setAtUnchecked_nat, if_pos (by omega)]
  refine ⟨_, rfl, ?_, ?_⟩
  · simp only [Release.precision, List.length_set] at hp ⊢; omega
  · intro j
    have := part_set q.parts i j x (by simp only [Release.precision] at hp; omega)
    simp only [Release.part] at hg ⊢
    rw [this, hg j]

theorem slice_nat (r : Release) (i : Nat) :
    r.slice (increment (i : Int)) = Release.create (r.parts.take (i + 1)) := by
  unfold Release.slice Release.sliceParts pySliceTo
  have e : (increment (i : Int)).toNat = i + 1 := by unfold increment; omega
  rw [if_pos (by unfold increment; omega), e]

/-- `next_at` at a non-negative index. -/
theorem nextAt_nat (r : Release) (h : r.parts ≠ []) (i : Nat) :
    ∃ q, r.nextAt i = .ok q ∧ q.precision = max r.precision (i + 1) ∧
      (∀ j, q.part j = if j < i then r.part j else if j = i then r.part i + 1 else 0) := by
  unfold Release.nextAt
  rw [getAt_nat]
  simp only [bind, Except.bind]
  have hv : (if i < r.precision then r.part i else 0) = r.part i := by
    split
    · rfl
    · rename_i hlt
      simp only [Release.part, Release.precision] at hlt ⊢
      rw [List.getD_eq_getElem?_getD, List.getElem?_eq_none (by omega)]; rfl
  rw [hv]
  obtain ⟨u, hu, hup, hug⟩ := setAt_nat r h i (increment (r.part i))
  rw [hu]
  simp only [slice_nat]
  have hne : u.parts.take (i + 1) ≠ [] := by
    rw [← List.length_pos_iff, List.length_take]
    simp only [Release.precision] at hup; omega
  rw [create_ok hne]
  simp only
  obtain ⟨q, hq, hqp, hqg⟩ := padTo_ok ⟨u.parts.take (i + 1)⟩ hne u.precision
  rw [hq]
  refine ⟨q, rfl, ?_, ?_⟩
  · simp only [Release.precision, List.length_take] at hqp hup ⊢; omega
  · intro j
    rw [hqg j]
    have h1 := hug j
    simp only [Release.part, List.getD_eq_getElem?_getD, List.getElem?_take] at h1 ⊢
    by_cases hj : j < i
    · rw [if_pos (by omega), if_pos hj, h1, if_neg (by omega)]
    · rw [if_neg hj]
      by_cases hji : j = i
      · rw [if_pos (by omega), if_pos hji, h1, if_pos hji]; rfl
      · rw [if_neg (by omega), if_neg hji]; rfl

/-- A release is determined by its precision and its parts. -/
theorem release_ext (a b : Release) (hp : a.precision = b.precision) (h : ∀ i, a.part i = b.part i) : a = b := by
  obtain ⟨a⟩ := a
  obtain ⟨b⟩ := b
  simp only [Release.precision, Release.part] at *
  congr 1
  apply List.ext_getElem hp
  intro i h1 h2
  have := h i
  simpa [List.getD_eq_getElem?_getD, List.getElem?_eq_getElem, h1, h2] using this

theorem below_nextAt {r q : Release} {i : Nat}
    (hq : ∀ j, q.part j = if j < i then r.part j else if j = i then r.part i + 1 else 0) : r.Below q :=
  ⟨i, fun j hj => by rw [hq j, if_pos hj], by rw [hq i, if_neg (by omega), if_pos rfl]; omega⟩

end Verif
