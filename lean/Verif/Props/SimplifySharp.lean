import Verif.Props.Simplify
import Verif.Props.Bumps
/-!
# The factor of C86 is the best possible
-/

namespace Verif
open scoped Verif

/-- The range `[k, k + 1)`. -/
def exMajor (k : Int) : Item := .range ⟨some (exVersion [k]), some (exVersion [k + 1]), true, false⟩

theorem major_next (k : Int) : (exVersion [k]).nextTildeBreaking = .ok (exVersion [k + 1]) := rfl

theorem major_lt {a b : Int} (ha : 0 ≤ a) (h : a < b) : exVersion [a] <ₚ exVersion [b] :=
  (C77_laws (exVersion [0]) (exVersion [a]) (exVersion [b]) (by decide +kernel) 0 0 a b rfl rfl).2.2 rfl (by decide +kernel) ha h

theorem exMajor_valid (k : Int) : (exVersion [k]).Valid := (C77_set (exVersion [0]) (by decide +kernel) k 0 Version.setMajor (by simp)).elim
  fun _ h => by cases h.1; exact h.2.1

theorem major_translate {k : Int} (hk : 0 ≤ k) (lim : Nat) :
    (Specifier.one ⟨.tilde, exVersion [k]⟩).toSet lim = .ok (.item (exMajor k)) := by
  have h := range_translate (major_next k)
  rw [if_neg] at h
  · exact h
  · have := (vlt_iff ..).1 (major_lt hk (Int.lt_succ k))
    exact not_lt.2 this.le

theorem major_normal {k : Int} (hk : 0 ≤ k) : (exMajor k).Normal := by
  refine ⟨nofun, nofun, ?_⟩
  rintro a b h1 h2
  cases h1
  cases h2
  exact major_lt hk (Int.lt_succ k)

theorem major_before {a b : Int} (ha : 0 ≤ a) (h : a + 1 < b) : (exMajor a).hi < (exMajor b).lo := by
  have := (vlt_iff ..).1 (major_lt (show 0 ≤ a + 1 by omega) h)
  show cutAt _ false < cutAt _ false
  rw [cutAt_lt]
  exact .inl this

theorem union_apart {l : List Item} {r : VRange} (hl : l ≠ []) (hn : AllNormal (l ++ [.range r])) (hg : Gaps (l ++ [.range r])) (lim : Nat) :
    (ofItems l).unionWith (lim + 1) (.item (.range r)) = .ok (ofItems (l ++ [.range r])) := by
  match l, hl with
  | [.point v], _ =>
    have hlt : (Item.point v).hi < (Item.range r).lo := (List.pairwise_cons.1 hg).1 _ (by simp)
    have hc : ¬ (Item.range r).contains v = true := by
      rw [contains_iff]
      rintro ⟨h1, h2⟩
      have : (Item.point v).lo < (Item.point v).hi := (hn _ (by simp)).lo_lt_hi
      have : (Item.point v).lo = cut v := rfl
      order
    show Item.unionItem (lim + 1) _ _ = _
    rw [Item.unionItem, if_neg hc]
    exact mergeItems_gaps hn hg _
  | [.range w], _ =>
    have hlt : (Item.range w).hi < (Item.range r).lo := (List.pairwise_cons.1 hg).1 _ (by simp)
    have hc : ((Item.range w).intersectsItem (.range r) || (Item.range w).isAdjacent (.range r)) = false := by
      rw [← Bool.not_eq_true, connected_iff (hn _ (by simp)) (hn _ (by simp))]
      rintro ⟨-, h2⟩
      order
    rw [Bool.or_eq_false_iff] at hc
    show Item.unionItem (lim + 1) _ _ = _
    rw [Item.unionItem]
    simp only [hc.1, hc.2, Bool.not_false, Bool.and_self, if_true]
    exact mergeItems_gaps hn hg _
  | a :: b :: l, _ =>
    show VSet.mergeItems (Item.unionItem (lim + 1)) ([VSet.union (a :: b :: l), .item (.range r)].flatMap VSet.extract) = _
    rw [show [VSet.union (a :: b :: l), .item (.range r)].flatMap VSet.extract = a :: b :: l ++ [.range r] by simp [VSet.extract]]
    exact mergeItems_gaps hn hg _

/-- `~1 || ~3 || ~5 || ...`. -/
def exOdd (n : Nat) : List Specifier := (List.range n).map fun k : Nat => .one ⟨.tilde, exVersion [2 * (k : Int) + 1]⟩
def exOddItems (n : Nat) : List Item := (List.range n).map fun k : Nat => exMajor (2 * (k : Int) + 1)

theorem exOdd_normal (n : Nat) : AllNormal (exOddItems n) := by
  intro i hi
  obtain ⟨k, -, rfl⟩ := List.mem_map.1 hi
  exact major_normal (by omega)

theorem exOdd_gaps (n : Nat) : Gaps (exOddItems n) := by
  unfold Gaps exOddItems
  rw [List.pairwise_map]
  refine List.pairwise_lt_range.imp fun {a b} h => major_before (by omega) (by omega)

theorem reduceAny_append (lim : Nat) : ∀ (l m : List Specifier) (x y : VSet), Specifier.reduceAny lim x l = .ok y →
    Specifier.reduceAny lim x (l ++ m) = Specifier.reduceAny lim y m
  | [], m, x, y, h => by
    obtain rfl : x = y := Except.ok.inj (by rw [Specifier.reduceAny] at h; exact h)
    rfl
  | s :: l, m, x, y, h => by
    rw [List.cons_append, Specifier.reduceAny]
    rw [Specifier.reduceAny] at h
    simp only [bind, Except.bind] at h ⊢
    cases hs : s.toSet lim with
    | error e => rw [hs] at h; cases h
    | ok t =>
      rw [hs] at h
      dsimp only at h ⊢
      cases hu : x.unionWith lim t with
      | error e => rw [hu] at h; cases h
      | ok u =>
        rw [hu] at h
        exact reduceAny_append lim l m u y h

theorem exOdd_toSet (lim : Nat) : ∀ n : Nat, (Specifier.any (exOdd (n + 1))).toSet (lim + 1) = .ok (ofItems (exOddItems (n + 1)))
  | 0 => by
    have := major_translate (k := 1) (by decide) (lim + 1)
    show (do Specifier.reduceAny (lim + 1) (← (Specifier.one ⟨.tilde, exVersion [1]⟩).toSet (lim + 1)) []) = _
    rw [this]
    rfl
  | n + 1 => by
    have ih := exOdd_toSet lim n
    have e1 : exOdd (n + 1 + 1) = exOdd (n + 1) ++ [.one ⟨.tilde, exVersion [2 * ((n + 1 : Nat) : Int) + 1]⟩] := by
      rw [exOdd, List.range_succ, List.map_append]; rfl
    have e2 : exOddItems (n + 1 + 1) = exOddItems (n + 1) ++ [exMajor (2 * ((n + 1 : Nat) : Int) + 1)] := by
      rw [exOddItems, List.range_succ, List.map_append]; rfl
    obtain ⟨s, l, hl⟩ := List.exists_cons_of_ne_nil (show exOdd (n + 1) ≠ [] by simp [exOdd])
    rw [e1, hl, List.cons_append, Specifier.toSet]
    rw [hl, Specifier.toSet] at ih
    cases hs : s.toSet (lim + 1) with
    | error e => rw [hs] at ih; cases ih
    | ok x =>
      rw [hs] at ih
      show Specifier.reduceAny (lim + 1) x (l ++ _) = _
      rw [reduceAny_append (lim + 1) l _ x _ ih, Specifier.reduceAny, major_translate (by omega)]
      have hu := union_apart (r := ⟨some (exVersion [2 * ((n + 1 : Nat) : Int) + 1]), some (exVersion [2 * ((n + 1 : Nat) : Int) + 1 + 1]), true, false⟩)
        (l := exOddItems (n + 1)) (by simp [exOddItems]) (by have := exOdd_normal (n + 1 + 1); rw [e2] at this; exact this)
        (by have := exOdd_gaps (n + 1 + 1); rw [e2] at this; exact this) lim
      simp only [bind, Except.bind]
      rw [show VSet.item (exMajor (2 * ((n + 1 : Nat) : Int) + 1)) = .item (.range _) from rfl, hu, e2]
      rfl

/-- C86. The factor is the best possible, for any number of operators. -/
theorem C86_sharp (n : Nat) : ∃ s : Specifier, s.Valid ∧ s.operators = n ∧
    ∀ lim, ∃ t, s.simplify (lim + 1) = .ok t ∧ t.operators = 2 * n := by
  match n with
  | 0 => exact ⟨.never, .never, rfl, fun lim => ⟨.never, rfl, rfl⟩⟩
  | 1 => exact ⟨.one ⟨.tilde, exVersion [1]⟩, .one (by decide +kernel) (by simp), rfl, fun lim => ⟨_, rfl, rfl⟩⟩
  | n + 2 =>
    refine ⟨.any (exOdd (n + 2)), .any (by simp [exOdd]) ?_, ?_, fun lim => ?_⟩
    · intro s hs
      obtain ⟨k, -, rfl⟩ := List.mem_map.1 hs
      exact .one (exMajor_valid _) (by simp)
    · rw [Specifier.operators, Specifier.operatorsAll_eq, exOdd, List.map_map]
      simp [Function.comp_def, Specifier.operators]
    · have ht := exOdd_toSet lim (n + 1)
      have hn := normal_ofItems (exOdd_normal (n + 2)) (exOdd_gaps (n + 2))
      have hl : 2 ≤ (exOddItems (n + 2)).length := by simp [exOddItems]
      rw [Specifier.simplify, ht]
      show ∃ t, Specifier.fromSet (lim + 1) (ofItems (exOddItems (n + 2))) = .ok t ∧ _
      rcases Specifier.fromSet_view hn with ⟨h1, -⟩ | ⟨i, h1, -⟩ | ⟨v, -, hc, -⟩ | ⟨-, -, f⟩
      · have := congrArg VSet.extract h1
        rw [extract_ofItems] at this
        rw [this] at hl; simp [VSet.extract] at hl
      · have := congrArg VSet.extract h1
        rw [extract_ofItems] at this
        rw [this] at hl; simp [VSet.extract] at hl
      · obtain ⟨i, hi, h1, h2⟩ := (hc ⊥).2 ⟨bot_ne_top, (bot_lt_cutAt v false).ne⟩
        rw [extract_ofItems] at hi
        obtain ⟨k, -, rfl⟩ := List.mem_map.1 hi
        exact absurd h1 (not_le.2 (bot_lt_cutAt _ _))
      · refine ⟨_, f _, ?_⟩
        rw [Specifier.operators, Specifier.operatorsAll_eq, extract_ofItems, exOddItems, List.map_map, List.map_map]
        simp [Function.comp_def, exMajor, Specifier.ofItem, Specifier.operators, Specifier.operatorsAll]
        omega

example : ((Specifier.any (exOdd 3)).simplify 2).toOption.map (fun t => (t.operators, (Specifier.any (exOdd 3)).operators)) = some (6, 3) := by
  decide +kernel

end Verif
