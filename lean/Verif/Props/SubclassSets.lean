import Verif.Proofs.SubclassSets
/-!
# C106: sets of versions of more than one class
-/

namespace Verif

/-- On sets of one class, every operation on version sets is the operation of the one-class model. -/
theorem C106_one_class (S : ItemSort) (lim c : Nat) (s t : VSet) :
    (s.ofClass c).includes (t.ofClass c) = .ok (s.includes t) ∧
    (s.ofClass c).intersects (t.ofClass c) = .ok (s.intersects t) ∧
    (s.ofClass c).intersection S lim (t.ofClass c) = (s.intersection lim t).map (·.ofClass c) ∧
    (s.ofClass c).unionWith S lim (t.ofClass c) = (s.unionWith lim t).map (·.ofClass c) ∧
    (s.ofClass c).difference S lim (t.ofClass c) = (s.difference lim t).map (·.ofClass c) ∧
    (s.ofClass c).symmetricDifference S lim (t.ofClass c) = (s.symmetricDifference lim t).map (·.ofClass c) ∧
    (s.ofClass c).complement S lim = (s.complement lim).map (·.ofClass c) :=
  ⟨setIncludes_ofClass c s t, setIntersects_ofClass c s t, setIntersection_ofClass S c lim s t, setUnion_ofClass S c lim s t,
    setDifference_ofClass S c lim s t, setSymmetric_ofClass S c lim s t, setComplement_ofClass S c lim s⟩

example : ((VSet.union [exRange (some [1]) (some [2]) true false, exPoint [3]]).ofClass 7).unionWith .insertion 5
      ((VSet.item (exRange (some [2]) (some [3]) true false)).ofClass 7) =
    .ok ((VSet.item (exRange (some [1]) (some [3]) true true)).ofClass 7) := by decide +kernel

/-- A parsed version set is the set of the one-class model, in the class that has been asked for. -/
theorem C106_parse (S : ItemSort) (lim c : Nat) :
    (∀ s : PyStr, TSet.parse S lim c s = (VSet.parse lim s).map (·.ofClass c)) ∧
    (∀ s : Specifier, (s.ofClass c).toSet S lim = (s.toSet lim).map (·.ofClass c)) ∧
    ∀ (t : OpType) (v : Version), t.translateT S lim ⟨c, v⟩ = ((⟨t, v⟩ : Operator).toSet lim).map (·.ofClass c) :=
  ⟨parse_ofClass S lim c, toSet_ofClass S c lim, translate_ofClass S c lim⟩

example : OpType.translateT .insertion 5 .notEqual ⟨3, exVersion [1]⟩ =
    .ok (.union [.range ⟨none, some ⟨3, exVersion [1]⟩, false, false⟩, .range ⟨some ⟨3, exVersion [1]⟩, none, false, false⟩]) := by
  decide +kernel

/-- The empty set and the universal set belong to every class. -/
theorem C106_classless (s : VSet) (c d : Nat) (h : c ≠ d) (hs : s.Normal) :
    s.ofClass c = s.ofClass d ↔ s = .empty ∨ s = .universal := by
  constructor
  · intro he
    by_contra hn
    simp only [not_or] at hn
    obtain ⟨h1, h2, -⟩ := loose_extract hs hn.1 hn.2
    obtain ⟨i, l, hl⟩ := List.exists_cons_of_ne_nil h1
    have := congrArg TSet.extract he
    rw [extract_ofClass, extract_ofClass, hl, List.map_cons, List.map_cons, List.cons.injEq] at this
    have h3 := congrArg TItem.cls this.1
    have h4 := (h2 i (by simp [hl])).2
    rw [cls_ofClass h4, cls_ofClass h4] at h3
    exact h (Option.some.inj h3)
  · rintro (rfl | rfl) <;> rfl

example : (VSet.item (exPoint [1])).ofClass 0 ≠ (VSet.item (exPoint [1])).ofClass 1 ∧
    VSet.universal.ofClass 0 = VSet.universal.ofClass 1 := by decide +kernel

section
open Classical

/-- With a set of another class, and neither empty nor universal: the union raises `TypeError`. -/
theorem C106_union (S : ItemSort) (lim : Nat) (c d : Nat) (h : c ≠ d) (s t : VSet) (hs : s.Normal) (ht : t.Normal)
    (es : s ≠ .empty) (et : t ≠ .empty) (us : s ≠ .universal) (ut : t ≠ .universal) :
    (s.ofClass c).unionWith S (lim + 1) (t.ofClass d) = .error .typeError ∧
    (s.ofClass c).symmetricDifference S (lim + 1) (t.ofClass d) =
      if ∃ l, s = .union l then .error .attributeError else .error .typeError := by
  have hu := foreign_setUnion S lim h hs ht es et us ut
  refine ⟨hu, ?_⟩
  cases s with
  | empty => exact absurd rfl es
  | union l => rw [if_pos ⟨l, rfl⟩]; rfl
  | item i =>
    rw [if_neg (by simp)]
    show (do
      let u ← ((VSet.item i).ofClass c).unionWith S (lim + 1) (t.ofClass d)
      let n ← ((VSet.item i).ofClass c).intersection S (lim + 1) (t.ofClass d)
      u.difference S (lim + 1) n) = _
    rw [hu]; rfl

/-- The intersection is empty if a point meets a set without ranges; otherwise it raises `TypeError`. -/
theorem C106_intersection (S : ItemSort) (lim : Nat) (c d : Nat) (h : c ≠ d) (s t : VSet) (hs : s.Normal) (ht : t.Normal)
    (es : s ≠ .empty) (et : t ≠ .empty) (us : s ≠ .universal) (ut : t ≠ .universal) :
    (s.ofClass c).intersection S lim (t.ofClass d) =
      if (∃ v, s = .item (.point v)) ∧ ∀ r, Item.range r ∉ t.extract then .ok .empty else .error .typeError :=
  foreign_setIntersection h S lim hs ht es et us ut

/-- The difference is the set itself if a point meets a set without ranges; otherwise it raises `TypeError`. -/
theorem C106_difference (S : ItemSort) (lim : Nat) (c d : Nat) (h : c ≠ d) (s t : VSet) (hs : s.Normal) (ht : t.Normal)
    (es : s ≠ .empty) (et : t ≠ .empty) (us : s ≠ .universal) (ut : t ≠ .universal) :
    (s.ofClass c).difference S lim (t.ofClass d) =
      if (∃ v, s = .item (.point v)) ∧ ∀ r, Item.range r ∉ t.extract then .ok (s.ofClass c) else .error .typeError :=
  foreign_setDifference h S lim hs ht es et us ut

/-- `includes` never answers `True`; it raises if a range of the set is compared with the first item of the other. -/
theorem C106_includes (c d : Nat) (h : c ≠ d) (s t : VSet) (hs : s.Normal) (ht : t.Normal)
    (es : s ≠ .empty) (et : t ≠ .empty) (us : s ≠ .universal) (ut : t ≠ .universal) :
    (s.ofClass c).includes (t.ofClass d) =
      if ∃ r, Item.range r ∈ s.extract ∧ ∃ b ∈ t.extract.head?, (r.min ≠ none ∧ b.min ≠ none) ∨ (r.min = none ∧ b.max ≠ none)
      then .error .typeError else .ok false :=
  foreign_setIncludes h hs ht es et us ut

/-- `intersects` answers `True` if the first items are unbounded on the same side. -/
theorem C106_intersects (c d : Nat) (h : c ≠ d) (s t : VSet) (hs : s.Normal) (ht : t.Normal)
    (es : s ≠ .empty) (et : t ≠ .empty) (us : s ≠ .universal) (ut : t ≠ .universal) :
    (s.ofClass c).intersects (t.ofClass d) =
      if (∃ v, s = .item (.point v)) ∧ ∀ r, Item.range r ∉ t.extract then .ok false
      else if ∃ a ∈ s.extract.head?, ∃ b ∈ t.extract.head?, (a.min = none ∧ b.min = none) ∨ (a.max = none ∧ b.max = none) then .ok true
      else .error .typeError :=
  foreign_setIntersects h hs ht es et us ut

end

example : ((VSet.item (exPoint [1])).ofClass 0).unionWith .insertion 5 ((VSet.union [exPoint [1], exPoint [2]]).ofClass 1) =
      .error .typeError ∧
    ((VSet.item (exPoint [1])).ofClass 0).intersection .insertion 5 ((VSet.union [exPoint [1], exPoint [2]]).ofClass 1) =
      .ok .empty ∧
    ((VSet.union [exPoint [1], exPoint [2]]).ofClass 1).intersection .insertion 5 ((VSet.item (exPoint [1])).ofClass 0) =
      .error .typeError ∧
    ((VSet.item (exPoint [1])).ofClass 0).difference .insertion 5 ((VSet.union [exPoint [1], exPoint [2]]).ofClass 1) =
      .ok ((VSet.item (exPoint [1])).ofClass 0) ∧
    ((VSet.item (exRange none (some [1]) false false)).ofClass 0).difference .insertion 5
      ((VSet.item (exRange none (some [2]) false false)).ofClass 1) = .error .typeError ∧
    ((VSet.union [exPoint [1], exPoint [2]]).ofClass 0).symmetricDifference .insertion 5 ((VSet.item (exPoint [1])).ofClass 1) =
      .error .attributeError := by decide +kernel

example : ((VSet.item (exRange none (some [1]) false false)).ofClass 0).intersects
      ((VSet.item (exRange none (some [2]) false false)).ofClass 1) = .ok true ∧
    ((VSet.item (exRange none (some [1]) false false)).ofClass 0).intersects
      ((VSet.item (exRange (some [2]) none false false)).ofClass 1) = .error .typeError ∧
    ((VSet.item (exRange none (some [1]) false false)).ofClass 0).includes
      ((VSet.item (exRange (some [2]) none false false)).ofClass 1) = .ok false ∧
    ((VSet.union [exPoint [1], exRange (some [2]) none false false]).ofClass 0).includes
      ((VSet.item (exPoint [1])).ofClass 1) = .error .typeError := by decide +kernel

end Verif
