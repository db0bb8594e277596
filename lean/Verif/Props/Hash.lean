import Verif.Model.Caches
import Verif.Proofs.Specifiers
import Verif.Props.Sets
import Mathlib.Logic.Equiv.List
/-!
# Hashes (C05)
-/

namespace Verif
open scoped Verif

/-- C05. Equal versions, epochs, releases, local segments and tags of a class have equal hashes, whatever the hash functions of
the built-in types. -/
theorem C05_versions (H : Hasher) (a b : Version) (h : a ==ₚ b) : H.version a = H.version b := rfl

example (H : Hasher) : exVersion [1] ==ₚ exVersion [1, 0] ∧ H.version (exVersion [1]) = H.version (exVersion [1, 0]) :=
  ⟨by decide +kernel, C05_versions H _ _ (by decide +kernel)⟩

theorem C05_segments (H : Hasher) :
    (∀ a b : Epoch, PyCmp.eq a b = true → H.epoch a = H.epoch b) ∧ (∀ a b : Release, PyCmp.eq a b = true → H.release a = H.release b) ∧
    (∀ a b : Local, PyCmp.eq a b = true → H.local_ a = H.local_ b) ∧ ∀ c, ∀ a b : Tag, PyCmp.eq a b = true → H.tag c a = H.tag c b := by
  refine ⟨fun a b h => ?_, fun _ _ _ => rfl, fun _ _ _ => rfl, fun c a b h => ?_⟩
  · unfold Hasher.epoch; rw [(CmpKey.epoch.eq a b).1 h]
  · have h := (CmpKey.tag.eq a b).1 h
    have h1 : strKey a.phase = strKey b.phase := congrArg (fun x => (ofLex x).1) h
    have h2 : a.value = b.value := congrArg (fun x => (ofLex x).2) h
    unfold Hasher.tag; rw [strKey_injective h1, h2]

example (H : Hasher) : PyCmp.eq (⟨[1]⟩ : Release) ⟨[1, 0, 0]⟩ = true ∧ H.release ⟨[1]⟩ = H.release ⟨[1, 0, 0]⟩ :=
  ⟨by decide +kernel, (C05_segments H).2.1 _ _ (by decide +kernel)⟩

theorem optEq_hash (H : Hasher) {a b : Option Version} (h : optEq a b = true) : H.option H.version a = H.option H.version b := by
  cases a <;> cases b <;> simp [optEq] at h <;> rfl

theorem item_hash (H : Hasher) {a b : Item} (h : a.eq b = true) : H.item a = H.item b := by
  unfold Item.eq at h
  simp only [Bool.and_eq_true, beq_iff_eq] at h
  obtain ⟨⟨⟨h1, h2⟩, h3⟩, h4⟩ := h
  unfold Hasher.item
  rw [optEq_hash H h1, optEq_hash H h2, h3, h4]

/-- C05. Equal ranges, points and unions have equal hashes. (Also a point and the range with equal ends which are both
included, which are equal though of different classes.) -/
theorem C05_sets (H : Hasher) (a b : VSet) (h : a.eq b = true) : H.vset a = H.vset b := by
  cases a with
  | empty => cases b with
    | empty => rfl
    | _ => simp [VSet.eq] at h
  | item i => cases b with
    | item j => exact item_hash H h
    | _ => simp [VSet.eq] at h
  | union xs => cases b with
    | union ys =>
      simp only [Hasher.vset]
      simp only [VSet.eq] at h
      congr 4
      induction xs generalizing ys with
      | nil => cases ys with
        | nil => rfl
        | cons _ _ => simp at h
      | cons x xs ih => cases ys with
        | nil => simp at h
        | cons y ys =>
          simp only [List.length_cons, List.zip_cons_cons, List.all_cons, Bool.and_eq_true, beq_iff_eq,
            Nat.add_right_cancel_iff] at h
          simp only [List.map_cons, List.cons.injEq]
          exact ⟨item_hash H h.2.1, ih ys (by simp only [Bool.and_eq_true, beq_iff_eq]; exact ⟨h.1, h.2.2⟩)⟩
    | _ => simp [VSet.eq] at h

example (H : Hasher) : H.vset (.item (exPoint [1])) = H.vset (.item (exRange (some [1]) (some [1, 0]) true true)) :=
  C05_sets H _ _ (by decide +kernel)

example : (VSet.item (exPoint [1])).eq (.item (exPoint [1, 0])) = true ∧ exPoint [1] ≠ exPoint [1, 0] := by decide
example : (exVersion [1] ==ₚ exVersion [1, 0]) ∧ exVersion [1] ≠ exVersion [1, 0] := by decide

/-- The operators `=` and `=*`, written `==` and `==*` as well, do not occur. -/
inductive Specifier.NoShort : Specifier → Prop
  | never : NoShort .never
  | always : NoShort .always
  | one {o : Operator} : o.type ≠ .equal → o.type ≠ .wildcardEqual → NoShort (.one o)
  | any {l : List Specifier} : (∀ s ∈ l, s.NoShort) → NoShort (.any l)
  | all {l : List Specifier} : (∀ s ∈ l, s.NoShort) → NoShort (.all l)

/-- C05. Equal specifiers in which `=` and `=*` do not occur have equal hashes. -/
theorem C05_specifiers (H : Hasher) (s t : Specifier) (hs : s.NoShort) (ht : t.NoShort) (h : s.eq t = true) :
    H.specifier s = H.specifier t := by
  have lists : ∀ l : List Specifier, (∀ s ∈ l, ∀ t : Specifier, t.NoShort → s.eq t = true → H.specifier s = H.specifier t) →
      ∀ m : List Specifier, (∀ t ∈ m, t.NoShort) → Specifier.eqList l m = true → H.specifiers l = H.specifiers m := by
    intro l ih
    induction l with
    | nil => intro m _ h; cases m with
      | nil => rfl
      | cons _ _ => simp [Specifier.eqList] at h
    | cons a l ihl => intro m hm h; cases m with
      | nil => simp [Specifier.eqList] at h
      | cons b m =>
        simp only [Specifier.eqList, Bool.and_eq_true] at h
        simp only [Hasher.specifiers]
        rw [ih a (by simp) b (hm b (by simp)) h.1, ihl (fun s hs => ih s (by simp [hs])) m (fun t ht => hm t (by simp [ht])) h.2]
  induction hs generalizing t with
  | never => cases t <;> simp [Specifier.eq] at h; rfl
  | always => cases t <;> simp [Specifier.eq] at h; rfl
  | one h1 h2 =>
    rename_i o
    cases ht with
    | one g1 g2 =>
      rename_i p
      simp only [Specifier.eq, Operator.eq, Bool.and_eq_true] at h
      have : o.type = p.type := by
        have h := h.1
        generalize o.type = x at *
        generalize p.type = y at *
        cases x <;> cases y <;> first
          | rfl
          | exact absurd h (by decide)
          | exact absurd rfl h1
          | exact absurd rfl h2
          | exact absurd rfl g1
          | exact absurd rfl g2
      simp only [Hasher.specifier, Hasher.operator, this]
      rfl
    | _ => simp [Specifier.eq] at h
  | any _ ih => cases ht with
    | any g =>
      simp only [Specifier.eq] at h
      simp only [Hasher.specifier]
      rw [lists _ (fun s hs t ht h => ih s hs t ht h) _ g h]
    | _ => simp [Specifier.eq] at h
  | all _ ih => cases ht with
    | all g =>
      simp only [Specifier.eq] at h
      simp only [Hasher.specifier]
      rw [lists _ (fun s hs t ht h => ih s hs t ht h) _ g h]
    | _ => simp [Specifier.eq] at h

example (H : Hasher) : H.specifier (.one ⟨.less, exVersion [2]⟩) = H.specifier (.one ⟨.less, exVersion [2, 0]⟩) :=
  C05_specifiers H _ _ (.one (by decide) (by decide)) (.one (by decide) (by decide)) (by decide +kernel)

/-- C05, violated by specifiers. `= v` and `== v` are equal, and hash differently unless the hashes of strings or tuples
collide; likewise `=*` and `==*`. -/
theorem C05_violation (v : Version) :
    (Specifier.one ⟨.equal, v⟩).eq (.one ⟨.doubleEqual, v⟩) = true ∧
    (Specifier.one ⟨.wildcardEqual, v⟩).eq (.one ⟨.wildcardDoubleEqual, v⟩) = true ∧
    ∀ H : Hasher, H.str.Injective → H.tuple.Injective →
      H.specifier (.one ⟨.equal, v⟩) ≠ H.specifier (.one ⟨.doubleEqual, v⟩) ∧
      H.specifier (.one ⟨.wildcardEqual, v⟩) ≠ H.specifier (.one ⟨.wildcardDoubleEqual, v⟩) := by
  have hv : PyCmp.eq v v = true := (veq_iff v v).2 rfl
  refine ⟨?_, ?_, fun H h1 h2 => ⟨fun h => ?_, fun h => ?_⟩⟩
  · simp [Specifier.eq, Operator.eq, hv, OpType.eq, OpType.inEquals]
  · simp [Specifier.eq, Operator.eq, hv, OpType.eq, OpType.inWildcardEquals]
  · simp only [Hasher.specifier, Hasher.operator] at h
    have := h2 h
    simp only [List.cons.injEq, and_true, true_and] at this
    exact absurd (h1 this) (by decide)
  · simp only [Hasher.specifier, Hasher.operator] at h
    have := h2 h
    simp only [List.cons.injEq, and_true, true_and] at this
    exact absurd (h1 this) (by decide)

/-- Hash functions as in the violation exist. -/
example : ∃ H : Hasher, H.str.Injective ∧ H.tuple.Injective := by
  have : Countable Char := (Function.Injective.countable (f := Char.toNat) fun a b h => Char.toNat_inj.1 h)
  obtain ⟨f, hf⟩ := Countable.exists_injective_nat PyStr
  obtain ⟨g, hg⟩ := Countable.exists_injective_nat (List Int)
  exact ⟨⟨fun s => (f s : Int), id, 0, fun l => (g l : Int), fun _ => 0⟩, fun a b h => hf (Int.ofNat.inj h),
    fun a b h => hg (Int.ofNat.inj h)⟩

/-- C05, as dictionaries see it: after storing under a key, looking up an equal version or set finds an entry with an equal
key, whatever else is stored. -/
theorem C05_lookup {β : Type} (H : Hasher) (entries : List (VSet × β)) (k k' : VSet) (x : β) (hmem : (k, x) ∈ entries)
    (h : k.eq k' = true) :
    ∃ e, entries.find? (fun e => decide (H.vset e.1 = H.vset k') && e.1.eq k') = some e ∧ e.1.eq k' = true := by
  cases hf : entries.find? (fun e => decide (H.vset e.1 = H.vset k') && e.1.eq k') with
  | none =>
    have := List.find?_eq_none.1 hf _ hmem
    simp [h, C05_sets H k k' h] at this
  | some e =>
    have := List.find?_some hf
    simp only [Bool.and_eq_true] at this
    exact ⟨e, rfl, this.2⟩

example (H : Hasher) : ∃ e, [(VSet.item (exPoint [1]), 7)].find? (fun e => decide (H.vset e.1 = H.vset (.item (exPoint [1, 0]))) &&
    e.1.eq (.item (exPoint [1, 0]))) = some e ∧ e.1.eq (.item (exPoint [1, 0])) = true :=
  C05_lookup H [(.item (exPoint [1]), 7)] (.item (exPoint [1])) (.item (exPoint [1, 0])) 7 (.head _) (by decide +kernel)

end Verif
