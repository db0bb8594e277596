import Verif.Props.OperatorOrder
import Verif.Model.Parsers
/-!
# C118: the requirements `== p.*` are nested, disjoint or equal, and the other windows are cut out of them
-/

namespace Verif

/-- The version in the operator `== p.*`, where the wildcard is read as 0. -/
def wild (e : Epoch) (p : List Int) : Version := { epoch := e, release := ⟨p ++ [0]⟩ }

/-- The first `n` parts, missing ones as 0. -/
def Version.firstParts (v : Version) (n : Nat) : List Int := (List.range n).map v.release.part

theorem firstParts_length (v : Version) (n : Nat) : (v.firstParts n).length = n := by simp [Version.firstParts]

theorem firstParts_getD (v : Version) {n j : Nat} (h : j < n) : (v.firstParts n).getD j 0 = v.release.part j := by
  simp [Version.firstParts, h]

theorem firstParts_nonneg {v : Version} (h : v.release.NonNeg) (n : Nat) : ∀ x ∈ v.firstParts n, 0 ≤ x := by
  intro x hx
  obtain ⟨j, -, rfl⟩ := List.mem_map.1 hx
  exact part_nonneg h j

section
variable {e f : Epoch} {p q : List Int} {x a : Version}

theorem wild_part (e : Epoch) (p : List Int) (j : Nat) : (wild e p).release.part j = p.getD j 0 := by
  show (p ++ [0]).getD j 0 = _
  rw [List.getD_eq_getElem?_getD, List.getD_eq_getElem?_getD, List.getElem?_append]
  split
  · rfl
  · rename_i h
    rw [List.getElem?_eq_none (by omega : p.length ≤ j)]
    cases j - p.length <;> simp

theorem wild_precision (e : Epoch) (p : List Int) : (wild e p).release.precision = p.length + 1 := by
  simp [wild, Release.precision]

theorem wild_sane (e : Epoch) (h : ∀ y ∈ p, 0 ≤ y) : (wild e p).Sane := by
  refine ⟨⟨?_, by rintro t ⟨⟩, by rintro t ⟨⟩, by rintro t ⟨⟩, by rintro t ⟨⟩⟩, ?_⟩
  · rw [← precision_pos_iff, wild_precision]; omega
  · intro y hy
    rcases List.mem_append.1 hy with hy | hy
    · exact h y hy
    · rw [List.mem_singleton.1 hy]

theorem wild_final (e : Epoch) (p : List Int) : (wild e p).IsFinal := ⟨rfl, rfl, rfl, rfl⟩

theorem wild_accepts (hp : p ≠ []) (hn : ∀ y ∈ p, 0 ≤ y) (hx : x.Sane) :
    ∃ b, x.matchesWildcardEqual (wild e p) = .ok b ∧ (b = true ↔ wild e p ≤ₚ x ∧
      (x.SamePrefix p.length (wild e p) ∨ ((wild e p).NumbersBumped (p.length - 1) x ∧ x.LeadsToFinal))) := by
  have hl : 0 < p.length := List.length_pos_iff.2 hp
  have := C18_wildcard_general (wild e p) x (wild_sane e hn).valid (wild_sane e hn).nonNeg (by rw [wild_precision]; omega) ⟨rfl, rfl, rfl⟩ hx.valid hx.nonNeg
  rwa [wild_precision, show p.length + 1 - 1 = p.length by omega, show p.length + 1 - 2 = p.length - 1 by omega] at this

theorem wild_true (hp : p ≠ []) (hn : ∀ y ∈ p, 0 ≤ y) (hx : x.Sane) :
    x.matchesWildcardEqual (wild e p) = .ok true ↔ wild e p ≤ₚ x ∧
      (x.SamePrefix p.length (wild e p) ∨ ((wild e p).NumbersBumped (p.length - 1) x ∧ x.LeadsToFinal)) := by
  obtain ⟨b, h1, h2⟩ := wild_accepts (e := e) hp hn hx
  rw [h1, Except.ok.injEq, h2]

/-- What leads to a final version comes before it. -/
theorem leads_lt (hf : a.IsFinal) (ha : a.Sane) (hx : x.Sane) (h : x.SameNumbers a) (hl : x.LeadsToFinal) : ¬ a ≤ₚ x := by
  rw [vle_iff, not_le]
  exact (lt_final_iff hf (by rw [h.1]) ((compareParts_eq_iff _ _ hx.valid.release ha.valid.release).2 h.2)).2 hl

theorem ext_getD (hl : p.length = q.length) (h : ∀ j < p.length, p.getD j 0 = q.getD j 0) : p = q := by
  refine List.ext_getElem hl fun j h1 h2 => ?_
  have := h j h1
  simpa [List.getD_eq_getElem?_getD, h1, h2] using this

theorem below_le (ha : a.Sane) (hx : x.Sane) (he : a.epoch = x.epoch) (h : a.release.Below x.release) : a ≤ₚ x := by
  rw [vle_iff]
  exact le_of_lt ((key_lt_iff _ _).2 (.inr ⟨by rw [he], .inl (compareParts_lt_of_below _ _ ha.valid.release hx.valid.release ha.nonNeg h)⟩))

end

/-- C118. Two requirements `== p.*` and `== q.*` with as many parts that have a version in common are the same. -/
theorem C118_disjoint (e f : Epoch) (p q : List Int) (hp : p ≠ []) (hl : p.length = q.length) (hn : ∀ y ∈ p, 0 ≤ y) (hm : ∀ y ∈ q, 0 ≤ y)
    (x : Version) (hx : x.Sane) (h : x.matchesWildcardEqual (wild e p) = .ok true) (k : x.matchesWildcardEqual (wild f q) = .ok true) :
    e = f ∧ p = q := by
  have hq : q ≠ [] := fun h => hp (List.length_eq_zero_iff.1 (by rw [hl, h]; rfl))
  have hpos : 0 < p.length := List.length_pos_iff.2 hp
  obtain ⟨le1, h⟩ := (wild_true hp hn hx).1 h
  obtain ⟨le2, k⟩ := (wild_true hq hm hx).1 k
  have mixed : ∀ {e f : Epoch} {p q : List Int}, (∀ y ∈ p, 0 ≤ y) → 0 < p.length → p.length = q.length → wild e p ≤ₚ x → x.SamePrefix p.length (wild e p) →
      (wild f q).NumbersBumped (q.length - 1) x → x.LeadsToFinal → False := by
    intro e f p q hn hpos hl le hs hb hlead
    refine leads_lt (wild_final e p) (wild_sane e hn) hx ⟨hs.1, fun j => ?_⟩ hlead le
    by_cases hj : j < p.length
    · exact hs.2 j hj
    · rw [hb.2 j, if_neg (by omega), if_neg (by omega), wild_part, List.getD_eq_getElem?_getD, List.getElem?_eq_none (by omega)]
      rfl
  rcases h with h | ⟨h, hlead⟩
  · rcases k with k | ⟨k, klead⟩
    · refine ⟨h.1.symm.trans k.1, ext_getD hl fun j hj => ?_⟩
      have := (h.2 j hj).symm.trans (k.2 j (by omega))
      rwa [wild_part, wild_part] at this
    · exact (mixed hn hpos hl le1 h k klead).elim
  · rcases k with k | ⟨k, klead⟩
    · exact (mixed hm (by omega) hl.symm le2 k h hlead).elim
    · refine ⟨h.1.symm.trans k.1, ext_getD hl fun j hj => ?_⟩
      have := (h.2 j).symm.trans (k.2 j)
      rw [wild_part, wild_part, wild_part, wild_part, hl] at this
      by_cases hc : j < q.length - 1
      · rwa [if_pos hc, if_pos hc] at this
      · have hj' : j = q.length - 1 := by omega
        rw [if_neg hc, if_neg hc, if_pos hj', if_pos hj', ← hj'] at this
        omega

/-- `1.2.3` satisfies `== 1.2.*`, so it satisfies `== p.q.*` for no other `p` and `q`. -/
example (p q : Nat) (h : (exVersion [1, 2, 3]).matchesWildcardEqual (wild ⟨0⟩ [(p : Int), q]) = .ok true) : p = 1 ∧ q = 2 := by
  have := (C118_disjoint ⟨0⟩ ⟨0⟩ [1, 2] [(p : Int), q] (by simp) rfl (by simp) (by simp) (exVersion [1, 2, 3]) ⟨by decide +kernel, by decide +kernel⟩ (by decide +kernel) h).2
  simp at this
  omega

/-- C118. More parts allow less. -/
theorem C118_nested (e : Epoch) (p r : List Int) (hp : p ≠ []) (hn : ∀ y ∈ p ++ r, 0 ≤ y) (x : Version) (hx : x.Sane)
    (h : x.matchesWildcardEqual (wild e (p ++ r)) = .ok true) : x.matchesWildcardEqual (wild e p) = .ok true := by
  have hn1 : ∀ y ∈ p, 0 ≤ y := fun y hy => hn y (List.mem_append_left _ hy)
  have hpos : 0 < p.length := List.length_pos_iff.2 hp
  cases r with
  | nil => rwa [List.append_nil] at h
  | cons a r =>
    obtain ⟨le, h⟩ := (wild_true (by simp [hp]) hn hx).1 h
    have same : ∀ j < p.length, (wild e (p ++ a :: r)).release.part j = (wild e p).release.part j := by
      intro j hj
      rw [wild_part, wild_part, List.getD_eq_getElem?_getD, List.getD_eq_getElem?_getD, List.getElem?_append_left hj]
    refine (wild_true hp hn1 hx).2 ⟨?_, .inl ?_⟩
    · refine (vle_iff _ _).2 (le_trans ((vle_iff _ _).1 ?_) ((vle_iff _ _).1 le))
      refine wildcard_min (wild_sane e hn1).valid (by rw [wild_precision]; omega) (wild_final e p) ?_ (wild_sane e hn1).nonNeg (wild_sane e hn).valid
        (wild_sane e hn).nonNeg ?_ ⟨rfl, fun j hj => ?_⟩
      · rw [wild_part, wild_precision, List.getD_eq_getElem?_getD, List.getElem?_eq_none (by omega)]; rfl
      · rintro (h | h)
        · exact h rfl
        · exact h.2 rfl
      · rw [wild_precision] at hj
        exact same j (by omega)
    · rcases h with h | ⟨h, -⟩
      · refine ⟨h.1, fun j hj => ?_⟩
        rw [h.2 j (by simp; omega), same j hj]
      · refine ⟨h.1, fun j hj => ?_⟩
        rw [h.2 j, if_pos (by simp; omega), same j hj]

example : (exVersion [1, 2, 3]).matchesWildcardEqual (wild ⟨0⟩ [1]) = .ok true :=
  C118_nested ⟨0⟩ [1] [2] (by decide +kernel) (by decide +kernel) _ ⟨by decide +kernel, by decide +kernel⟩ (by decide +kernel)

/-- C118. A version satisfies `== p.*` for exactly one `p` of `n` parts, of its own epoch, unless it leads to a final version
whose parts from the `n`-th on are zero. -/
theorem C118_covered (x : Version) (hx : x.Sane) (n : Nat) (hn : 0 < n) (h : ¬ (x.LeadsToFinal ∧ ∀ j, n - 1 ≤ j → x.release.part j = 0)) :
    ∃ p : List Int, p.length = n ∧ (∀ y ∈ p, 0 ≤ y) ∧ x.matchesWildcardEqual (wild x.epoch p) = .ok true ∧
      ∀ f q, q.length = n → (∀ y ∈ q, 0 ≤ y) → x.matchesWildcardEqual (wild f q) = .ok true → f = x.epoch ∧ q = p := by
  suffices hs : ∃ p : List Int, p.length = n ∧ (∀ y ∈ p, 0 ≤ y) ∧ x.matchesWildcardEqual (wild x.epoch p) = .ok true by
    obtain ⟨p, h1, h2, h3⟩ := hs
    refine ⟨p, h1, h2, h3, fun f q k1 k2 k3 => ?_⟩
    exact C118_disjoint f x.epoch q p (fun hq => by rw [hq] at k1; simp at k1; omega) (by omega) k2 h2 x hx k3 h3
  have len := firstParts_length x n
  have ne : x.firstParts n ≠ [] := fun hq => by rw [hq] at len; simp at len; omega
  have nn := firstParts_nonneg hx.nonNeg n
  have part : ∀ j < n, (wild x.epoch (x.firstParts n)).release.part j = x.release.part j := fun j hj => by
    rw [wild_part, firstParts_getD x hj]
  have zero : ∀ j, n ≤ j → (wild x.epoch (x.firstParts n)).release.part j = 0 := fun j hj => by
    rw [wild_part, List.getD_eq_getElem?_getD, List.getElem?_eq_none (by omega)]; rfl
  have same : x.SamePrefix n (wild x.epoch (x.firstParts n)) := ⟨rfl, fun j hj => (part j hj).symm⟩
  by_cases hl : x.LeadsToFinal
  · have h : ∃ j, n - 1 ≤ j ∧ x.release.part j ≠ 0 := by
      by_contra hc
      exact h ⟨hl, fun j hj => by by_contra hz; exact hc ⟨j, hj, hz⟩⟩
    by_cases hd : ∃ j, n ≤ j ∧ x.release.part j ≠ 0
    · refine ⟨_, len, nn, (wild_true ne nn hx).2 ⟨below_le (wild_sane _ nn) hx rfl ?_, .inl (by rw [len]; exact same)⟩⟩
      obtain ⟨h1, h2⟩ := Nat.find_spec hd
      refine ⟨Nat.find hd, fun k hk => ?_, ?_⟩
      · by_cases hkn : k < n
        · exact part k hkn
        · rw [zero k (by omega)]
          by_contra hz
          exact Nat.find_min hd hk ⟨by omega, fun h => hz h.symm⟩
      · rw [zero _ h1]
        have := part_nonneg hx.nonNeg (Nat.find hd)
        omega
    · have hz : ∀ j, n ≤ j → x.release.part j = 0 := fun j hj => by by_contra hz; exact hd ⟨j, hj, hz⟩
      obtain ⟨j, hj, hne⟩ := h
      have hj : j = n - 1 := by
        by_contra hc
        exact hne (hz j (by omega))
      subst hj
      have hpos : 0 < x.release.part (n - 1) := by
        have := part_nonneg hx.nonNeg (n - 1); omega
      refine ⟨x.firstParts (n - 1) ++ [x.release.part (n - 1) - 1], by rw [List.length_append, firstParts_length]; simp; omega, ?_, ?_⟩
      · intro y hy
        rcases List.mem_append.1 hy with hy | hy
        · exact firstParts_nonneg hx.nonNeg _ y hy
        · rw [List.mem_singleton.1 hy]; omega
      · have nn' : ∀ y ∈ x.firstParts (n - 1) ++ [x.release.part (n - 1) - 1], 0 ≤ y := by
          intro y hy
          rcases List.mem_append.1 hy with hy | hy
          · exact firstParts_nonneg hx.nonNeg _ y hy
          · rw [List.mem_singleton.1 hy]; omega
        have fl := firstParts_length x (n - 1)
        have low : ∀ j < n - 1, (wild x.epoch (x.firstParts (n - 1) ++ [x.release.part (n - 1) - 1])).release.part j = x.release.part j := fun j hj => by
          rw [wild_part, List.getD_eq_getElem?_getD, List.getElem?_append_left (by omega), ← List.getD_eq_getElem?_getD, firstParts_getD x hj]
        have mid : (wild x.epoch (x.firstParts (n - 1) ++ [x.release.part (n - 1) - 1])).release.part (n - 1) = x.release.part (n - 1) - 1 := by
          rw [wild_part, List.getD_eq_getElem?_getD, List.getElem?_append_right (by omega), fl]
          simp
        refine (wild_true (by simp) nn' hx).2 ⟨below_le (wild_sane _ nn') hx rfl ⟨n - 1, low, by rw [mid]; omega⟩, .inr ⟨⟨rfl, fun j => ?_⟩, hl⟩⟩
        rw [List.length_append, fl, show n - 1 + [x.release.part (n - 1) - 1].length - 1 = n - 1 by simp]
        split
        · rename_i hj; exact (low j hj).symm
        · split
          · rename_i hj; rw [mid, hj]; omega
          · exact hz j (by omega)
  · refine ⟨_, len, nn, (wild_true ne nn hx).2 ⟨?_, .inl (by rw [len]; exact same)⟩⟩
    refine wildcard_min (wild_sane _ nn).valid (by rw [wild_precision]; omega) (wild_final _ _) ?_ (wild_sane _ nn).nonNeg hx.valid hx.nonNeg hl ?_
    · rw [wild_precision, len]; exact zero _ (by omega)
    · rw [wild_precision, len]; exact same

/-- `2.0-rc.1` is ruled out by the hypothesis from `n = 2` on, `2.1-rc.1` from `n = 3` on. -/
example : ∃ p : List Int, p.length = 2 ∧ (exVersion [2, 1] (some rcTag)).matchesWildcardEqual (wild ⟨0⟩ p) = .ok true := by
  obtain ⟨p, h1, -, h2, -⟩ := C118_covered (exVersion [2, 1] (some rcTag)) ⟨by decide +kernel, by decide +kernel⟩ 2 (by omega) fun h => absurd (h.2 1 le_rfl) (by decide)
  exact ⟨p, h1, h2⟩

/-- C118, a surprise. Otherwise it satisfies none of them: `2.0-rc.1` satisfies `== 1.*`, but no `== p.q.*`. -/
theorem C118_uncovered (x : Version) (hx : x.Sane) (n : Nat) (hn : 0 < n) (hl : x.LeadsToFinal) (hz : ∀ j, n - 1 ≤ j → x.release.part j = 0)
    (f : Epoch) (q : List Int) (hq : q.length = n) (hm : ∀ y ∈ q, 0 ≤ y) : x.matchesWildcardEqual (wild f q) = .ok false := by
  have ne : q ≠ [] := fun h => by rw [h] at hq; simp at hq; omega
  obtain ⟨b, h1, h2⟩ := wild_accepts (e := f) ne hm hx
  rw [h1]
  refine congrArg _ ?_
  rw [Bool.eq_false_iff]
  intro hb
  obtain ⟨le, h | ⟨h, -⟩⟩ := h2.1 hb
  · refine leads_lt (wild_final f q) (wild_sane f hm) hx ⟨h.1, fun j => ?_⟩ hl le
    by_cases hj : j < q.length
    · exact h.2 j hj
    · rw [hz j (by omega), wild_part, List.getD_eq_getElem?_getD, List.getElem?_eq_none (by omega)]; rfl
  · have := h.2 (q.length - 1)
    rw [if_neg (by omega), if_pos rfl, hz _ (by omega)] at this
    have := part_nonneg (wild_sane f hm).nonNeg (q.length - 1)
    omega

example : (exVersion [2, 0] (some rcTag)).matchesWildcardEqual (wild ⟨0⟩ [1]) = .ok true ∧ (exVersion [2, 0] (some rcTag)).matchesWildcardEqual (wild ⟨0⟩ [2]) = .ok false ∧
    (exVersion [2, 0] (some rcTag)).matchesWildcardEqual (wild ⟨0⟩ [2, 0]) = .ok false ∧ (exVersion [2, 0] (some rcTag)).matchesWildcardEqual (wild ⟨0⟩ [1, 9]) = .ok false ∧
    (exVersion [1, 2, 3]).matchesWildcardEqual (wild ⟨0⟩ [1, 2]) = .ok true ∧ (exVersion [1, 2, 3]).matchesWildcardEqual (wild ⟨0⟩ [1]) = .ok true ∧
    wild ⟨0⟩ [1, 2] = exVersion [1, 2, 0] := by decide +kernel

/-- A window from a version to its bump is what `>=` leaves of `== p.*`. -/
theorem window_wild {a w x : Version} {i : Nat} {next : Version → Except PyErr Version} (h : next a = .ok w) (hb : Bumped i a w) (ha : a.Sane) (hx : x.Sane)
    (hl : ¬ a.LeadsToFinal) :
    Version.chained next x a = .ok true ↔ a ≤ₚ x ∧ x.matchesWildcardEqual (wild a.epoch (a.firstParts (i + 1))) = .ok true := by
  have nn := firstParts_nonneg ha.nonNeg (i + 1)
  have len := firstParts_length a (i + 1)
  have ne : a.firstParts (i + 1) ≠ [] := fun hq => by rw [hq] at len; simp at len
  have part : ∀ j < i + 1, (wild a.epoch (a.firstParts (i + 1))).release.part j = a.release.part j := fun j hj => by
    rw [wild_part, firstParts_getD a hj]
  have low : wild a.epoch (a.firstParts (i + 1)) ≤ₚ a := by
    refine wildcard_min (wild_sane _ nn).valid (by rw [wild_precision]; omega) (wild_final _ _) ?_ (wild_sane _ nn).nonNeg ha.valid ha.nonNeg hl
      ⟨rfl, fun j hj => ?_⟩
    · rw [wild_precision, wild_part, List.getD_eq_getElem?_getD, List.getElem?_eq_none (by omega)]; rfl
    · rw [wild_precision, len] at hj
      exact (part j (by omega)).symm
  have same : x.SamePrefix (i + 1) a ↔ x.SamePrefix (i + 1) (wild a.epoch (a.firstParts (i + 1))) :=
    ⟨fun h => ⟨h.1, fun j hj => (h.2 j hj).trans (part j hj).symm⟩, fun h => ⟨h.1, fun j hj => (h.2 j hj).trans (part j hj)⟩⟩
  have bump : a.NumbersBumped i x ↔ (wild a.epoch (a.firstParts (i + 1))).NumbersBumped i x := by
    have e : ∀ j, (if j < i then (wild a.epoch (a.firstParts (i + 1))).release.part j
        else if j = i then (wild a.epoch (a.firstParts (i + 1))).release.part i + 1 else 0) =
        if j < i then a.release.part j else if j = i then a.release.part i + 1 else 0 := by
      intro j
      by_cases h1 : j < i
      · rw [if_pos h1, if_pos h1, part j (by omega)]
      · rw [if_neg h1, if_neg h1, part i (by omega)]
    unfold Version.NumbersBumped
    exact and_congr_right fun _ => forall_congr' fun j => by rw [e]
  rw [chained_true h, vle_iff, wild_true ne nn hx, len, show i + 1 - 1 = i by omega, ← same, ← bump]
  constructor
  · rintro ⟨h1, h2⟩
    exact ⟨h1, (vle_iff _ _).2 (le_trans ((vle_iff _ _).1 low) h1), (hb.window ha.valid ha.nonNeg hx.valid hx.nonNeg h1).1 h2⟩
  · rintro ⟨h1, -, h2⟩
    exact ⟨h1, (hb.window ha.valid ha.nonNeg hx.valid hx.nonNeg h1).2 h2⟩

/-- C118. `~= v` is `>= v, == p.*`, where `p` is `v` without its last part, as PEP 440 says: unless `v` leads to a final version. -/
theorem C118_tilde_equal (v x : Version) (hv : v.Sane) (hx : x.Sane) (hp : 2 ≤ v.release.precision) (hl : ¬ v.LeadsToFinal) :
    x.matchesTildeEqual v = .ok true ↔
      x.matchesGreaterOrEqual v = .ok true ∧ x.matchesWildcardEqual (wild v.epoch (v.firstParts (v.release.precision - 1))) = .ok true := by
  obtain ⟨w, h1, h2⟩ := (tildeEqual_spec hv.valid).2 hp
  have := window_wild h1 h2 hv hx hl
  rw [show v.release.precision - 2 + 1 = v.release.precision - 1 by omega, vle_iff, ← vge_iff] at this
  exact this.trans (and_congr_left' ⟨fun h => congrArg _ h, fun h => Except.ok.inj h⟩)

example : (exVersion [1, 2, 9]).matchesWildcardEqual (wild ⟨0⟩ [1, 2]) = .ok true :=
  ((C118_tilde_equal (exVersion [1, 2, 3]) (exVersion [1, 2, 9]) ⟨by decide +kernel, by decide +kernel⟩ ⟨by decide +kernel, by decide +kernel⟩ (by decide +kernel)
    (by decide +kernel)).1 (by decide +kernel)).2

theorem not_leads {v : Version} (hs : v.pre = none ∧ v.dev = none) : ¬ v.LeadsToFinal := by
  rintro (h | h)
  · exact h hs.1
  · exact h.2 hs.2

/-- C118. `^ v` is `>= v, == p.*`, where `p` are the parts of `v` up to the leftmost non-zero one. -/
theorem C118_caret (v x : Version) (hv : v.Sane) (hx : x.Sane) (hs : v.pre = none ∧ v.dev = none) (i : Nat) (hi : CaretIndex v.release i) :
    x.matchesCaret v = .ok true ↔
      x.matchesGreaterOrEqual v = .ok true ∧ x.matchesWildcardEqual (wild v.epoch (v.firstParts (i + 1))) = .ok true := by
  obtain ⟨w, h1, h2, -⟩ := caret_spec hv.valid
  obtain ⟨k, hk, hb⟩ := h2 ((stable_iff v).2 hs)
  obtain rfl := caretIndex_unique hi hk
  have := window_wild h1 hb hv hx (not_leads hs)
  rw [vle_iff, ← vge_iff] at this
  exact this.trans (and_congr_left' ⟨fun h => congrArg _ h, fun h => Except.ok.inj h⟩)

example : (exVersion [0, 2, 9]).matchesWildcardEqual (wild ⟨0⟩ [0, 2]) = .ok true ∧ (exVersion [0, 3]).matchesCaret (exVersion [0, 2, 3]) = .ok false :=
  ⟨((C118_caret (exVersion [0, 2, 3]) (exVersion [0, 2, 9]) ⟨by decide +kernel, by decide +kernel⟩ ⟨by decide +kernel, by decide +kernel⟩
    ⟨rfl, rfl⟩ 1 (by decide +kernel)).1 (by decide +kernel)).2, (by decide +kernel)⟩

/-- C118. `~ v` is `>= v, == p.*`, where `p` are the first two parts of `v`, or the only one. -/
theorem C118_tilde (v x : Version) (hv : v.Sane) (hx : x.Sane) (hs : v.pre = none ∧ v.dev = none) :
    x.matchesTilde v = .ok true ↔
      x.matchesGreaterOrEqual v = .ok true ∧ x.matchesWildcardEqual (wild v.epoch (v.firstParts (min 2 v.release.precision))) = .ok true := by
  have hpos : 0 < v.release.precision := (precision_pos_iff _).2 hv.valid.release
  obtain ⟨w, h1, h2, -⟩ := tilde_spec hv.valid
  have := window_wild h1 (h2 ((stable_iff v).2 hs)) hv hx (not_leads hs)
  rw [show (if 2 ≤ v.release.precision then 1 else 0) + 1 = min 2 v.release.precision by split <;> omega, vle_iff, ← vge_iff] at this
  exact this.trans (and_congr_left' ⟨fun h => congrArg _ h, fun h => Except.ok.inj h⟩)

/-- `~= 1.2.3` is `>= 1.2.3, == 1.2.*`; but `1.0-rc.2` satisfies `~= 1.0-rc.1` and not `== 1.*`. -/
example : (exVersion [1, 2, 3]).firstParts 2 = [1, 2] ∧ (exVersion [1, 2, 9]).matchesTildeEqual (exVersion [1, 2, 3]) = .ok true ∧
    (exVersion [1, 2, 9]).matchesWildcardEqual (wild ⟨0⟩ [1, 2]) = .ok true ∧
    (exVersion [1, 0] (some ⟨"rc".toList, 2⟩)).matchesTildeEqual (exVersion [1, 0] (some rcTag)) = .ok true ∧
    (exVersion [1, 0] (some ⟨"rc".toList, 2⟩)).matchesWildcardEqual (wild ⟨0⟩ [1]) = .ok false := by decide +kernel

/-- What the string `==1.2.*` is read as. -/
example : Specifier.parse "==1.2.*".toList = .ok (.one ⟨.wildcardDoubleEqual, wild ⟨0⟩ [1, 2]⟩) := rfl

end Verif
