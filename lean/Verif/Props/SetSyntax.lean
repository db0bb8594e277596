import Verif.Model.SetOperators
import Verif.Props.Sets
/-!
# The operator syntax of version sets (C54)
-/

namespace Verif
open scoped Verif

/-- C54. `v in a` and `a.accepts(v)` say whether `a` contains `v`, if `a` is not a union. -/
theorem C54_in (a : VSet) (v : Version) (h : ∀ items, a ≠ .union items) :
    ∃ b, VSet.isIn v a = .ok b ∧ (b = true ↔ a.Mem v) ∧ a.accepts v = b := by
  cases a with
  | empty => exact ⟨_, rfl, vset_contains_iff_mem _ _, rfl⟩
  | item i => exact ⟨_, rfl, vset_contains_iff_mem (.item i) _, rfl⟩
  | union items => exact absurd rfl (h items)

example : VSet.isIn (exVersion [1, 5]) (.item (exRange (some [1]) (some [2]))) = .ok true ∧
    VSet.isIn (exVersion [2]) (.item (exRange (some [1]) (some [2]))) = .ok false ∧ VSet.isIn (exVersion [2]) .empty = .ok false := by decide +kernel

/-- C54. `a & b` never fails if `a` is not a union, and holds exactly the versions in both. -/
theorem C54_and (a b : VSet) (ha : a.Normal) (hb : b.Normal) (h : ∀ items, a ≠ .union items) :
    ∃ s, (∀ lim, a.binary lim .and b = .ok s ∧ a.inPlace lim .and b = .ok s) ∧ ∀ v, s.Mem v ↔ a.Mem v ∧ b.Mem v := by
  obtain ⟨s, h1, h2⟩ := C20_intersection_exact a b ha hb
  refine ⟨s, fun lim => ?_, fun v => by rw [← vset_contains_iff_mem, h2]⟩
  cases a with
  | empty => exact ⟨h1 lim, h1 lim⟩
  | item i => exact ⟨h1 lim, h1 lim⟩
  | union items => exact absurd rfl (h items)

example : (VSet.item (exRange (some [1]) (some [3]))).binary 5 .and (.union [exPoint [0], exPoint [2]]) = .ok (.item (exPoint [2])) := by decide +kernel

/-- C54. `a | b`, if `a` is not a union: what it returns holds exactly the versions in either. It returns unless the
operands clash, and then recurses without end (C22). -/
theorem C54_or (a b : VSet) (ha : a.Normal) (hb : b.Normal) (h : ∀ items, a ≠ .union items) :
    (∀ lim s, a.binary lim .or b = .ok s → ∀ v, s.Mem v ↔ a.Mem v ∨ b.Mem v) ∧ (∀ lim, a.inPlace lim .or b = a.binary lim .or b) ∧
    (¬ Clash (fun i => a.Has i ∨ b.Has i) → ∃ s, ∀ lim, a.binary (lim + 2) .or b = .ok s) ∧
    (Clash (fun i => a.Has i ∨ b.Has i) → ¬ ((∃ r, a = .item (.range r)) ∧ ∃ v, b = .item (.point v)) →
      ∀ lim, a.binary lim .or b = .error .recursionError) := by
  have e : ∀ lim, a.binary lim .or b = a.unionWith lim b := by
    intro lim
    cases a with
    | union items => exact absurd rfl (h items)
    | _ => rfl
  refine ⟨?_, ?_, ?_, ?_⟩
  · intro lim s hs v
    rw [e] at hs
    rw [← vset_contains_iff_mem, C21_union_exact a b s ha hb lim hs v]
  · intro lim
    cases a with
    | union items => rfl
    | _ => rfl
  · intro hc
    obtain ⟨s, hs⟩ := C22_union_returns a b ha hb (.inl hc)
    exact ⟨s, fun lim => by rw [e, hs]⟩
  · intro hc hx lim
    rw [e, C22_union_diverges a b ha hb hc hx]

example : (VSet.item (exRange (some [1]) (some [3]))).binary 5 .or (.item (exPoint [3])) = .ok (.item (exRange (some [1]) (some [3]) true true)) ∧
    (VSet.item (exPoint [1])).binary 5 .or (.item (exRange (some [1]) (some [3]) false)) = .error .recursionError := by decide +kernel

/-- C54. `a - b` never fails if `a` is not a union, and is exact except for a range minus a union of which one item holds
all versions of the range (C23). -/
theorem C54_sub (a b : VSet) (ha : a.Normal) (hb : b.Normal) (h : ∀ items, a ≠ .union items)
    (h2 : ∀ r items, a = .item (.range r) → b = .union items → ∀ j ∈ items, ¬ ∀ v, (Item.range r).Mem v → j.Mem v) :
    ∃ s, (∀ lim, a.binary lim .sub b = .ok s ∧ a.inPlace lim .sub b = .ok s) ∧ ∀ v, s.Mem v ↔ a.Mem v ∧ ¬ b.Mem v := by
  obtain ⟨s, h1, h3⟩ := C23_difference_exact a b ha hb (fun items hx => h items hx.1) h2
  refine ⟨s, fun lim => ?_, fun v => by rw [← vset_contains_iff_mem, h3]⟩
  cases a with
  | empty => exact ⟨h1 lim, h1 lim⟩
  | item i => exact ⟨h1 lim, h1 lim⟩
  | union items => exact absurd rfl (h items)

example : (VSet.item (exRange (some [1]) (some [3]))).binary 5 .sub (.union [exPoint [2], exPoint [4]]) =
    .ok (.union [exRange (some [1]) (some [2]), exRange (some [2]) (some [3]) false]) := by decide +kernel

/-- C54. `a ^ b`, if `a` is a range or a version and has a version in common with `b`, holds exactly the versions in one of
them but not in both (C25 says what happens otherwise). -/
theorem C54_xor (i : Item) (b s : VSet) (hi : i.Normal) (hb : b.Normal) (lim : Nat) (hc : ∃ v : Version, i.Mem v ∧ b.Mem v) :
    (VSet.item i).inPlace lim .xor b = (VSet.item i).binary lim .xor b ∧
    ((VSet.item i).binary lim .xor b = .ok s → ∀ v, s.Mem v ↔ (i.Mem v ∧ ¬ b.Mem v) ∨ (b.Mem v ∧ ¬ i.Mem v)) := by
  refine ⟨rfl, fun h v => ?_⟩
  have h : (VSet.item i).symmetricDifference lim b = .ok s := h
  cases hu : (VSet.item i).unionWith lim b with
  | error e => simp only [VSet.symmetricDifference, hu] at h; cases h
  | ok u =>
    rw [← vset_contains_iff_mem]
    exact (C25_symmetric_difference i b u s hi hb lim hu h).1 (.inl hc) v

example : (VSet.item (exRange (some [1]) (some [3]))).binary 5 .xor (.item (exPoint [2])) =
    .ok (.union [exRange (some [1]) (some [2]), exRange (some [2]) (some [3]) false]) ∧
    (exRange (some [1]) (some [3])).Mem (exVersion [2]) ∧ (exPoint [2]).Mem (exVersion [2]) := by decide +kernel

/-- C54, violated. On a union no operator works, whatever the other operand: `&`, `|`, `-`, `^`, their in-place forms and `in`
are TypeErrors, though the methods work. -/
theorem C54_union_fails (items : List Item) (b : VSet) (op : SetOp) (v : Version) (lim : Nat) :
    (VSet.union items).binary lim op b = .error .typeError ∧ (VSet.union items).inPlace lim op b = .error .typeError ∧
      VSet.isIn v (.union items) = .error .typeError := ⟨rfl, rfl, rfl⟩

example : (VSet.union [exPoint [1], exPoint [2]]).binary 5 .and (.item (exPoint [1])) = .error .typeError ∧
    (VSet.item (exPoint [1])).binary 5 .and (.union [exPoint [1], exPoint [2]]) = .ok (.item (exPoint [1])) := by decide +kernel

/-- C54, violated. `~a` is a TypeError for every set. -/
theorem C54_invert_fails (a : VSet) : a.invert = .error .typeError := rfl

example : (VSet.item (exPoint [1])).invert = .error .typeError ∧
    (VSet.item (exPoint [1])).complement 5 = .ok (.union [exRange none (some [1]) false, exRange (some [1]) none false]) := by decide +kernel

/-- C54, violated. So expressions like `a | b | c` fail as soon as a step before the last gives a union. -/
theorem C54_chain (a b : VSet) (items : List Item) (op : SetOp) (rest : List (SetOp × VSet)) (lim : Nat) (hr : rest ≠ [])
    (h : a.binary lim op b = .ok (.union items)) : a.chain lim ((op, b) :: rest) = .error .typeError := by
  cases rest with
  | nil => exact absurd rfl hr
  | cons x rest =>
    obtain ⟨op', c⟩ := x
    rw [VSet.chain, h]
    rfl

example : (VSet.item (exPoint [1])).binary 5 .or (.item (exPoint [2])) = .ok (.union [exPoint [1], exPoint [2]]) ∧
    (VSet.item (exPoint [1])).chain 5 [(.or, .item (exPoint [2])), (.or, .item (exPoint [3]))] = .error .typeError := by decide +kernel

/-- C54. `1 | 3 | 5` is a TypeError, but `1 | (3 | 5)` is a set. -/
theorem C54_example (lim : Nat) :
    (VSet.item (exPoint [1])).chain (lim + 2) [(.or, .item (exPoint [3])), (.or, .item (exPoint [5]))] = .error .typeError ∧
    (VSet.item (exPoint [3])).binary (lim + 2) .or (.item (exPoint [5])) = .ok (.union [exPoint [3], exPoint [5]]) ∧
    (VSet.item (exPoint [1])).binary (lim + 2) .or (.union [exPoint [3], exPoint [5]]) = .ok (.union [exPoint [1], exPoint [3], exPoint [5]]) :=
  ⟨rfl, rfl, rfl⟩

example : (VSet.item (exRange (some [1]) (some [3]))).binary 5 .xor (.item (exRange (some [2]) (some [4]))) =
    .ok (.union [exRange (some [1]) (some [2]), exRange (some [3]) (some [4])]) ∧
    (VSet.item (exRange (some [1]) (some [3]))).inPlace 5 .sub (.item (exRange (some [2]) none)) = .ok (.item (exRange (some [1]) (some [2]))) ∧
    VSet.isIn (exVersion [1, 5]) (.item (exRange (some [1]) (some [2]))) = .ok true := by decide +kernel

end Verif
