import Verif.Model.Operands
import Verif.Props.SetSyntax
/-!
# Version sets and operands that are not version sets (C104)
-/

namespace Verif
open scoped Verif

@[simp] theorem asSet_ofVSet (s : VSet) : (Obj.ofVSet s).asSet = some s := by cases s <;> rfl

theorem asSet_eq_some {x : Obj} {s : VSet} (h : x.asSet = some s) : x = .ofVSet s := by
  cases x <;> simp only [Obj.asSet, Option.some.injEq, reduceCtorEq] at h <;> subst h <;> rfl

@[simp] theorem extract_ofVSet (s : VSet) : (Obj.ofVSet s).extract = s.extract := by cases s <;> rfl

theorem extract_of_not_set {x : Obj} (h : x.asSet = none) : x.extract = [] := by
  cases x <;> first | rfl | cases h

theorem isEmpty_ofVSet (s : VSet) : (Obj.ofVSet s).isEmpty = .ok s.isEmpty := by simp [Obj.isEmpty]

theorem isEmpty_of_not_set {x : Obj} (h : x.asSet = none) : x.isEmpty = .error .attributeError := by simp [Obj.isEmpty, h]

theorem contains_of_not_set {x : Obj} (h : x.asSet = none) (y : Obj) : x.contains y = .error .attributeError := by
  cases x <;> first | rfl | cases h

theorem itemContains_version (i : Item) (v : Version) : Obj.itemContains i (.version v) = .ok (i.contains v) := by
  cases i with
  | point w => rfl
  | range r =>
    have h1 : Obj.ord .lt (.version v) (Obj.lowEnd (.range r)) = .ok (PyCmp.lt (.fin v) (Item.range r).comparableMin) := by
      unfold Obj.lowEnd Item.comparableMin; cases (Item.range r).min <;> rfl
    have h2 : Obj.eq (.version v) (Obj.lowEnd (.range r)) = PyCmp.eq (.fin v) (Item.range r).comparableMin := by
      unfold Obj.lowEnd Item.comparableMin; cases (Item.range r).min <;> rfl
    have h3 : Obj.ord .gt (.version v) (Obj.highEnd (.range r)) = .ok (PyCmp.gt (.fin v) (Item.range r).comparableMax) := by
      unfold Obj.highEnd Item.comparableMax; cases (Item.range r).max <;> rfl
    have h4 : Obj.eq (.version v) (Obj.highEnd (.range r)) = PyCmp.eq (.fin v) (Item.range r).comparableMax := by
      unfold Obj.highEnd Item.comparableMax; cases (Item.range r).max <;> rfl
    simp only [Obj.itemContains, h1, h2, h3, h4, bind, Except.bind, Item.contains]
    split_ifs <;> rfl

theorem anyContains_version (l : List Item) (v : Version) : Obj.anyContains l (.version v) = .ok (l.any (fun i => i.contains v)) := by
  induction l with
  | nil => rfl
  | cons i l ih =>
    rw [Obj.anyContains, itemContains_version, ih]
    cases h : i.contains v <;> simp [bind, Except.bind, h]

theorem contains_ofVSet (s : VSet) (v : Version) : (Obj.ofVSet s).contains (.version v) = .ok (s.contains v) := by
  cases s with
  | empty => rfl
  | item i => exact itemContains_version i v
  | union l => exact anyContains_version l v

theorem unionOfObjs_ofVSet (lim : Nat) (l : List VSet) : VSet.unionOfObjs lim (l.map Obj.ofVSet) = VSet.unionOf lim l := by
  unfold VSet.unionOfObjs VSet.unionOf
  congr 1
  induction l with
  | nil => rfl
  | cons s l ih => simp [ih]

theorem unionOfObjs_items (lim : Nat) (l : List Item) : VSet.unionOfObjs lim (l.map .item) = VSet.unionOf lim (l.map .item) := by
  rw [← unionOfObjs_ofVSet, List.map_map]; rfl

/-- C104. With version sets and versions as operands, the methods are those of the other properties. -/
theorem C104_sets (lim : Nat) (a s : VSet) (v : Version) (l : List VSet) (op : SetOp) :
    (Obj.ofVSet a).contains (.version v) = .ok (a.contains v) ∧ a.includesObj (.ofVSet s) = .ok (a.includes s) ∧
    a.intersectsObj (.ofVSet s) = .ok (a.intersects s) ∧ a.intersectionObj lim (.ofVSet s) = a.intersection lim s ∧
    a.unionObj lim (.ofVSet s) = (a.unionWith lim s).map .ofVSet ∧ a.differenceObj lim (.ofVSet s) = a.difference lim s ∧
    a.symmetricDifferenceObj lim (.ofVSet s) = (a.symmetricDifference lim s).map .ofVSet ∧
    VSet.unionOfObjs lim (l.map .ofVSet) = VSet.unionOf lim l ∧
    Obj.binary lim op (.ofVSet a) (.ofVSet s) = (a.binary lim op s).map .ofVSet ∧ Obj.isIn (.version v) (.ofVSet a) = VSet.isIn v a := by
  have hi : ∀ a : VSet, a.intersectionObj lim (.ofVSet s) = a.intersection lim s := by
    intro a
    match a with
    | .empty => cases s <;> rfl
    | .item (.range r) => simp [VSet.intersectionObj]
    | .item (.point w) =>
      simp only [VSet.intersectionObj, contains_ofVSet, bind, Except.bind]
      cases s <;> simp only [VSet.intersection] <;> split_ifs <;> rfl
    | .union items => simp [VSet.intersectionObj, VSet.intersection, unionOfObjs_items]
  have hu : ∀ a : VSet, a.unionObj lim (.ofVSet s) = (a.unionWith lim s).map .ofVSet := by
    intro a
    match a with
    | .empty => cases s <;> rfl
    | .item (.range r) => simp [VSet.unionObj]
    | .item (.point w) => simp [VSet.unionObj]
    | .union items =>
      have : VSet.unionOfObjs lim [.union items, .ofVSet s] = VSet.unionOf lim [.union items, s] := unionOfObjs_ofVSet lim [.union items, s]
      rw [VSet.unionObj, this]; cases s <;> rfl
  have hd : a.differenceObj lim (.ofVSet s) = a.difference lim s := by
    match a with
    | .empty => cases s <;> rfl
    | .item (.range r) => simp [VSet.differenceObj]
    | .item (.point w) =>
      simp only [VSet.differenceObj, contains_ofVSet, bind, Except.bind]
      cases s <;> simp only [VSet.difference] <;> split_ifs <;> rfl
    | .union items => simp [VSet.differenceObj, VSet.difference, unionOfObjs_items]
  have hx : a.symmetricDifferenceObj lim (.ofVSet s) = (a.symmetricDifference lim s).map .ofVSet := by
    match a with
    | .empty => cases s <;> rfl
    | .union items => rfl
    | .item i =>
      simp only [VSet.symmetricDifferenceObj, VSet.symmetricDifference, hu, hi, bind, Except.bind]
      cases (VSet.item i).unionWith lim s with
      | error e => rfl
      | ok u =>
        cases (VSet.item i).intersection lim s with
        | error e => rfl
        | ok n => simp [Except.map]
  refine ⟨contains_ofVSet a v, ?_, ?_, hi a, hu a, hd, hx, unionOfObjs_ofVSet lim l, ?_, ?_⟩
  · match a with
    | .empty => rw [VSet.includesObj, isEmpty_ofVSet]; cases s <;> rfl
    | .item (.range r) => simp [VSet.includesObj]
    | .item (.point w) =>
      cases s with
      | empty => rfl
      | union items => rfl
      | item j => cases j with
        | point u => rfl
        | range r =>
          have e : (VSet.item (.point w)).includesObj (.item (.range r)) = if (Item.range r).isEmpty then .ok true else .ok false := rfl
          show (VSet.item (.point w)).includesObj (.item (.range r)) = .ok (Item.range r).isEmpty
          rw [e]
          cases (Item.range r).isEmpty <;> rfl
    | .union items => simp [VSet.includesObj, VSet.includes]
  · match a with
    | .empty => cases s <;> rfl
    | .item (.range r) => simp [VSet.intersectsObj]
    | .item (.point w) => rw [VSet.intersectsObj, contains_ofVSet]; cases s <;> simp [VSet.intersects]
    | .union items => simp [VSet.intersectsObj, VSet.intersects]
  · cases a with
    | union items => cases op <;> rfl
    | empty => cases op with
      | and => exact congrArg (Except.map Obj.ofVSet) (hi .empty)
      | or => exact hu .empty
      | sub => exact congrArg (Except.map Obj.ofVSet) hd
      | xor => exact hx
    | item i => cases op with
      | and => exact congrArg (Except.map Obj.ofVSet) (hi (.item i))
      | or => exact hu (.item i)
      | sub => exact congrArg (Except.map Obj.ofVSet) hd
      | xor => exact hx
  · cases a with
    | union items => rfl
    | empty => rfl
    | item i => exact itemContains_version i v

example : (VSet.item (exRange (some [1]) (some [3]))).differenceObj 5 (.ofVSet (.item (exPoint [2]))) =
      (VSet.item (exRange (some [1]) (some [3]))).difference 5 (.item (exPoint [2])) ∧
    (VSet.item (exRange (some [1]) (some [3]))).differenceObj 5 (.ofVSet (.item (exPoint [2]))) =
      .ok (.union [exRange (some [1]) (some [2]) true false, exRange (some [2]) (some [3]) false false]) := by decide +kernel

/-- C104. Methods of ranges raise `TypeError` for an operand that is not a version set, methods of single versions raise
`AttributeError`. -/
theorem C104_item (lim : Nat) (x : Obj) (h : x.asSet = none) (r : VRange) (v : Version) :
    (let a := VSet.item (.range r)
     a.includesObj x = .error .typeError ∧ a.intersectsObj x = .error .typeError ∧ a.intersectionObj lim x = .error .typeError ∧
     a.unionObj lim x = .error .typeError ∧ a.differenceObj lim x = .error .typeError ∧ a.symmetricDifferenceObj lim x = .error .typeError) ∧
    (let a := VSet.item (.point v)
     a.includesObj x = .error .attributeError ∧ a.intersectsObj x = .error .attributeError ∧ a.intersectionObj lim x = .error .attributeError ∧
     a.unionObj lim x = .error .attributeError ∧ a.differenceObj lim x = .error .attributeError ∧ a.symmetricDifferenceObj lim x = .error .attributeError) := by
  refine ⟨⟨?_, ?_, ?_, ?_, ?_, ?_⟩, ?_, ?_, ?_, ?_, ?_, ?_⟩ <;>
    simp [VSet.includesObj, VSet.intersectsObj, VSet.intersectionObj, VSet.unionObj, VSet.differenceObj, VSet.symmetricDifferenceObj, h,
      isEmpty_of_not_set h, contains_of_not_set h, bind, Except.bind]

example : (VSet.item (exRange (some [1]) none)).includesObj (.version (exVersion [2])) = .error .typeError ∧
    (VSet.item (exPoint [1])).intersectionObj 5 (.specifier .always) = .error .attributeError := by decide +kernel

/-- C104. The empty set never looks at an operand, except for `includes`: it gives itself, or the operand, whatever that is. -/
theorem C104_empty (lim : Nat) (x : Obj) (h : x.asSet = none) :
    VSet.empty.includesObj x = .error .attributeError ∧ VSet.empty.intersectsObj x = .ok false ∧ VSet.empty.intersectionObj lim x = .ok .empty ∧
    VSet.empty.unionObj lim x = .ok x ∧ VSet.empty.differenceObj lim x = .ok .empty ∧ VSet.empty.symmetricDifferenceObj lim x = .ok x :=
  ⟨isEmpty_of_not_set h, rfl, rfl, rfl, rfl, rfl⟩

example : VSet.empty.unionObj 5 (.version (exVersion [2])) = .ok (.version (exVersion [2])) ∧
    VSet.empty.includesObj (.version (exVersion [2])) = .error .attributeError := ⟨rfl, rfl⟩

/-- C104. A union takes an operand that is not a version set for the empty set: it includes it, does not intersect it, and is
unchanged by the union with it; the difference is empty (C23). Only `symmetric_difference` fails, as unions have none. -/
theorem C104_union (lim : Nat) (items : List Item) (hu : (VSet.union items).Normal) (x : Obj) (h : x.asSet = none) :
    (VSet.union items).includesObj x = .ok true ∧ (VSet.union items).intersectsObj x = .ok false ∧
    (VSet.union items).intersectionObj lim x = .ok .empty ∧ (VSet.union items).unionObj lim x = .ok (.union items) ∧
    (VSet.union items).differenceObj lim x = .ok .empty ∧ (VSet.union items).symmetricDifferenceObj lim x = .error .attributeError := by
  have e := extract_of_not_set h
  obtain ⟨n1, n2, n3⟩ := hu.extract
  have hm : VSet.unionOfObjs lim [.union items, x] = .ok (.union items) := by
    show VSet.mergeItems _ (items ++ (x.extract ++ [])) = _
    rw [e, List.append_nil, List.append_nil]
    exact (mergeItems_gaps n1 n2 _).trans (by rw [← n3])
  refine ⟨?_, ?_, ?_, ?_, ?_, rfl⟩
  · rw [VSet.includesObj, e, VSet.includesLoop]
  · rw [VSet.intersectsObj, e]
    cases items <;> simp [VSet.intersectsLoop]
  · rw [VSet.intersectionObj, e]
    cases items <;> simp [VSet.intersectionLoop, bind, Except.bind, VSet.unionOfObjs, VSet.mergeItems]
  · rw [VSet.unionObj, hm]; rfl
  · rw [VSet.differenceObj, e]
    have := difference_bad_empty items lim
    rw [VSet.difference] at this
    simpa [unionOfObjs_items, VSet.extract] using this

example : (VSet.union [exRange none (some [1]) false, exRange (some [2]) none]).includesObj (.version (exVersion [1, 5])) = .ok true ∧
    (VSet.union [exRange none (some [1]) false, exRange (some [2]) none]).contains (exVersion [1, 5]) = false := by decide +kernel

/-- C104. So, of the methods with an operand that is not a version set, those of ranges and single versions always fail; those of
the empty set and of unions return, except for `includes` of the empty set and `symmetric_difference` of unions. -/
theorem C104_returns (lim : Nat) (a : VSet) (ha : a.Normal) (x : Obj) (h : x.asSet = none) :
    ((∃ b, a.includesObj x = .ok b) ↔ ∃ items, a = .union items) ∧
    ((∃ s, a.symmetricDifferenceObj lim x = .ok s) ↔ a = .empty) ∧
    ((∃ b, a.intersectsObj x = .ok b) ↔ ∀ i, a ≠ .item i) ∧ ((∃ s, a.intersectionObj lim x = .ok s) ↔ ∀ i, a ≠ .item i) ∧
    ((∃ s, a.unionObj lim x = .ok s) ↔ ∀ i, a ≠ .item i) ∧ ((∃ s, a.differenceObj lim x = .ok s) ↔ ∀ i, a ≠ .item i) := by
  match a, ha with
  | .empty, _ =>
    obtain ⟨h1, h2, h3, h4, h5, h6⟩ := C104_empty lim x h
    simp [h1, h2, h3, h4, h5, h6]
  | .item (.range r), _ =>
    obtain ⟨⟨h1, h2, h3, h4, h5, h6⟩, -⟩ := C104_item lim x h r (exVersion [1])
    simp [h1, h2, h3, h4, h5, h6]
  | .item (.point v), _ =>
    obtain ⟨-, h1, h2, h3, h4, h5, h6⟩ := C104_item lim x h {} v
    simp [h1, h2, h3, h4, h5, h6]
  | .union items, ha =>
    obtain ⟨h1, h2, h3, h4, h5, h6⟩ := C104_union lim items ha x h
    simp [h1, h2, h3, h4, h5, h6]

example : (Obj.version (exVersion [1])).asSet = none ∧ (Obj.specifier .never).asSet = none ∧ (Obj.ofVSet (.item (exPoint [1]))).asSet = some (.item (exPoint [1])) := by
  decide +kernel

/-- C104. `VersionUnion.of` skips the arguments that are not version sets. -/
theorem C104_of (lim : Nat) (xs : List Obj) : VSet.unionOfObjs lim xs = VSet.unionOf lim (xs.filterMap Obj.asSet) := by
  rw [← unionOfObjs_ofVSet]
  unfold VSet.unionOfObjs
  congr 1
  induction xs with
  | nil => rfl
  | cons x xs ih =>
    cases h : x.asSet with
    | none => rw [List.flatMap_cons, extract_of_not_set h, List.filterMap_cons_none h, List.nil_append, ih]
    | some s => rw [List.flatMap_cons, List.filterMap_cons_some h, List.map_cons, List.flatMap_cons, ih, asSet_eq_some h]

example : VSet.unionOfObjs 5 [.version (exVersion [1]), .item (exPoint [2])] = .ok (.item (exPoint [2])) ∧
    VSet.unionOfObjs 5 [.version (exVersion [1])] = .ok .empty := by decide +kernel

/-- C104. What the operators do when the right operand is not a version set: the empty set gives itself for `&` and `-` and the
operand for `|` and `^`; ranges raise `TypeError` and single versions `AttributeError`. Unions and all other objects on the left
raise `TypeError`, whatever is on the right. -/
theorem C104_operators (lim : Nat) (op : SetOp) (a x : Obj) :
    (x.asSet = none → Obj.binary lim op .empty x = .ok (if op = .and ∨ op = .sub then .empty else x) ∧
      (∀ r, Obj.binary lim op (.item (.range r)) x = .error .typeError) ∧
      ∀ v, Obj.binary lim op (.item (.point v)) x = .error .attributeError) ∧
    ((a.asSet = none ∨ ∃ items, a = .union items) → Obj.binary lim op a x = .error .typeError ∧ Obj.isIn x a = .error .typeError) := by
  refine ⟨fun h => ⟨?_, fun r => ?_, fun v => ?_⟩, ?_⟩
  · obtain ⟨-, -, h3, h4, h5, h6⟩ := C104_empty lim x h
    cases op <;> simp [Obj.binary, h3, h4, h5, h6, Except.map, Obj.ofVSet]
  · obtain ⟨⟨-, -, h3, h4, h5, h6⟩, -⟩ := C104_item lim x h r (exVersion [1])
    cases op <;> simp [Obj.binary, h3, h4, h5, h6, Except.map]
  · obtain ⟨-, -, -, h3, h4, h5, h6⟩ := C104_item lim x h {} v
    cases op <;> simp [Obj.binary, h3, h4, h5, h6, Except.map]
  · rintro (h | ⟨items, rfl⟩)
    · cases a <;> first | exact ⟨rfl, rfl⟩ | cases h
    · exact ⟨rfl, rfl⟩

example : Obj.binary 5 .or (.version (exVersion [1])) .empty = .error .typeError ∧
    Obj.binary 5 .or .empty (.version (exVersion [1])) = .ok (.version (exVersion [1])) := ⟨rfl, rfl⟩

/-- C104. `contains` of a range, with something that is not a version. An infinity is in no range. A range or single version raises
`AttributeError`; anything else raises `TypeError`, unless the range has no ends: that contains it. -/
theorem C104_contains_range (r : VRange) (hr : (Item.range r).Normal) (x : Obj) (h : ∀ v, x ≠ .version v) :
    (x.isAnyInfinity = true → Obj.itemContains (.range r) x = .ok false) ∧
    (∀ i, x = .item i → Obj.itemContains (.range r) x = .error .attributeError) ∧
    (x.isAnyInfinity = false → (∀ i, x ≠ .item i) →
      Obj.itemContains (.range r) x = if r = {} then .ok true else .error .typeError) := by
  obtain ⟨a, b, ia, ib⟩ := r
  obtain ⟨n1, n2, -⟩ := hr
  refine ⟨fun hx => ?_, ?_, fun hx hi => ?_⟩
  · cases x with
    | infinity =>
      cases b with
      | none => cases n2 rfl; cases a <;> cases ia <;> rfl
      | some w => cases a <;> cases ia <;> rfl
    | negativeInfinity =>
      cases a with
      | none => cases n1 rfl; cases b <;> cases ib <;> rfl
      | some w => rfl
    | _ => cases hx
  · rintro i rfl
    cases a <;> cases i <;> rfl
  · have key : (a = none ∧ b = none → Obj.itemContains (.range ⟨a, b, ia, ib⟩) x = .ok true) ∧
        (¬ (a = none ∧ b = none) → Obj.itemContains (.range ⟨a, b, ia, ib⟩) x = .error .typeError) := by
      cases x with
      | version v => exact absurd rfl (h v)
      | item i => exact absurd rfl (hi i)
      | infinity => cases hx
      | negativeInfinity => cases hx
      | _ =>
        refine ⟨?_, fun hab => ?_⟩
        · rintro ⟨rfl, rfl⟩
          cases ia <;> cases ib <;> rfl
        · cases a with
          | some a => rfl
          | none => cases b with
            | none => exact absurd ⟨rfl, rfl⟩ hab
            | some b => cases ia <;> rfl
    by_cases hab : a = none ∧ b = none
    · rw [key.1 hab]
      obtain ⟨rfl, rfl⟩ := hab
      cases n1 rfl; cases n2 rfl
      rw [if_pos rfl]
    · rw [key.2 hab, if_neg]
      intro he
      injection he with h1 h2
      exact hab ⟨h1, h2⟩

example : Obj.itemContains universalItem (.epoch ⟨1⟩) = .ok true ∧ Obj.itemContains (exRange (some [1]) none) (.epoch ⟨1⟩) = .error .typeError ∧
    Obj.itemContains universalItem (.item (exPoint [1])) = .error .attributeError ∧ Obj.itemContains universalItem .infinity = .ok false := by decide +kernel

theorem point_contains_not_version (v : Version) {x : Obj} (h : ∀ v, x ≠ .version v) : Obj.itemContains (.point v) x = .ok false := by
  cases x <;> first | rfl | exact absurd rfl (h _)

theorem anyContains_points {x : Obj} (h : ∀ v, x ≠ .version v) {l : List Item} (hl : ∀ i ∈ l, ∃ v, i = .point v) : Obj.anyContains l x = .ok false := by
  induction l with
  | nil => rfl
  | cons i l ih =>
    obtain ⟨v, rfl⟩ := hl i (by simp)
    rw [Obj.anyContains, point_contains_not_version v h]
    exact ih fun j hj => hl j (by simp [hj])

theorem anyContains_first {x : Obj} (h : ∀ v, x ≠ .version v) {l : List Item} (hl : ∃ r, Item.range r ∈ l) {y : PyErr}
    (hy : ∀ r, Item.range r ∈ l → Obj.itemContains (.range r) x = .error y) : Obj.anyContains l x = .error y := by
  induction l with
  | nil => obtain ⟨r, hr⟩ := hl; cases hr
  | cons i l ih =>
    cases i with
    | range r => rw [Obj.anyContains, hy r (by simp)]; rfl
    | point v =>
      rw [Obj.anyContains, point_contains_not_version v h]
      refine ih ?_ fun r hr => hy r (by simp [hr])
      obtain ⟨r, hr⟩ := hl
      exact ⟨r, by simpa using hr⟩

/-- No item of a union in normal form is without ends. -/
theorem union_item_bounded {items : List Item} (hu : (VSet.union items).Normal) {r : VRange} (hr : Item.range r ∈ items) : r ≠ {} := by
  rintro rfl
  obtain ⟨h1, -, h3⟩ := hu
  obtain ⟨k, hk, e⟩ := List.getElem_of_mem hr
  rw [List.pairwise_iff_getElem] at h3
  by_cases h0 : k = 0
  · obtain ⟨a, b, ha, -⟩ := h3 k (k + 1) hk (by omega) (by omega)
    rw [e] at ha; cases ha
  · obtain ⟨a, b, -, hb, -⟩ := h3 0 k (by omega) hk (by omega)
    rw [e] at hb; cases hb

/-- C104. Single versions and the empty set contain nothing that is not a version, without failing. A union contains no infinity
either, but raises what its ranges raise for anything else that is not a version, unless it has only single versions. -/
theorem C104_contains (x : Obj) (h : ∀ v, x ≠ .version v) (items : List Item) (hu : (VSet.union items).Normal) :
    Obj.contains .empty x = .ok false ∧ (∀ v, Obj.contains (.item (.point v)) x = .ok false) ∧
    (x.isAnyInfinity = true ∨ (∀ i ∈ items, ∃ v, i = .point v) → Obj.contains (.union items) x = .ok false) ∧
    ((∃ r, .range r ∈ items) → (∃ i, x = .item i) → Obj.contains (.union items) x = .error .attributeError) ∧
    ((∃ r, .range r ∈ items) → x.isAnyInfinity = false → (∀ i, x ≠ .item i) → Obj.contains (.union items) x = .error .typeError) := by
  have hn : ∀ r, Item.range r ∈ items → (Item.range r).Normal := fun r hr => hu.2.1 _ hr
  refine ⟨rfl, fun v => point_contains_not_version v h, ?_, ?_, ?_⟩
  · rintro (hx | hp)
    · show Obj.anyContains items x = _
      clear hu
      induction items with
      | nil => rfl
      | cons i l ih =>
        have e : Obj.itemContains i x = .ok false := by
          cases i with
          | point v => exact point_contains_not_version v h
          | range r => exact (C104_contains_range r (hn r (by simp)) x h).1 hx
        rw [Obj.anyContains, e]
        exact ih fun r hr => hn r (by simp [hr])
    · exact anyContains_points h hp
  · rintro hr ⟨i, rfl⟩
    exact anyContains_first h hr fun r hr => (C104_contains_range r (hn r hr) _ h).2.1 i rfl
  · intro hr hx hi
    refine anyContains_first h hr fun r hr => ?_
    rw [(C104_contains_range r (hn r hr) x h).2.2 hx hi, if_neg (union_item_bounded hu hr)]

example : Obj.contains (.union [exPoint [1], exPoint [2]]) (.release ⟨[1]⟩) = .ok false ∧
    Obj.contains (.union [exPoint [1], exRange (some [2]) none]) (.release ⟨[1]⟩) = .error .typeError ∧
    Obj.contains (.union [exPoint [1], exRange (some [2]) none]) .infinity = .ok false := by decide +kernel

end Verif
