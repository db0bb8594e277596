import Verif.Model.Subclasses
import Verif.Props.Failures
/-!
# C99: versions of more than one class

As long as one class of versions is used, the class does not matter: every operation gives the result of the one-class model.
A version of another class than those in a specifier or set is foreign to it. Equality with it fails, order comparisons raise
`TypeError`.
-/

namespace Verif

theorem TVersion.ord_ofClass (op : CmpOp) (c : Nat) (a b : Version) :
    TVersion.ord op ⟨c, a⟩ ⟨c, b⟩ = .ok (PyCmp.op op a b) := by simp [TVersion.ord, TVersion.ordMethod]

theorem TVersion.eq_ofClass (c : Nat) (a b : Version) : TVersion.eq ⟨c, a⟩ ⟨c, b⟩ = PyCmp.eq a b := by
  simp [TVersion.eq, TVersion.eqMethod]

theorem TVersion.ne_ofClass (c : Nat) (a b : Version) : TVersion.ne ⟨c, a⟩ ⟨c, b⟩ = !PyCmp.eq a b := by
  simp [TVersion.ne, TVersion.eqMethod]

theorem TVersion.ord_foreign (op : CmpOp) {a b : TVersion} (h : a.cls ≠ b.cls) : a.ord op b = .error .typeError := by
  simp [TVersion.ord, TVersion.ordMethod, h, h.symm]

theorem TVersion.eq_foreign {a b : TVersion} (h : a.cls ≠ b.cls) : a.eq b = false := by
  simp [TVersion.eq, TVersion.eqMethod, h, h.symm]

theorem TVersion.ne_foreign {a b : TVersion} (h : a.cls ≠ b.cls) : a.ne b = true := by
  simp [TVersion.ne, TVersion.eqMethod, h, h.symm]

/-- C99. Versions of one class compare as the one-class model says. Versions of two classes are never equal, however equal
their parts are, and no order comparison of them returns. -/
theorem C99_compare (a b : TVersion) :
    (a.cls = b.cls → a.eq b = PyCmp.eq a.version b.version ∧ a.ne b = (!PyCmp.eq a.version b.version) ∧
      ∀ op, a.ord op b = .ok (PyCmp.op op a.version b.version)) ∧
    (a.cls ≠ b.cls → a.eq b = false ∧ a.ne b = true ∧ ∀ op, a.ord op b = .error .typeError) := by
  refine ⟨fun h => ?_, fun h => ⟨TVersion.eq_foreign h, TVersion.ne_foreign h, fun op => TVersion.ord_foreign op h⟩⟩
  obtain ⟨c, a⟩ := a
  obtain ⟨d, b⟩ := b
  obtain rfl : c = d := h
  exact ⟨TVersion.eq_ofClass c a b, TVersion.ne_ofClass c a b, fun op => TVersion.ord_ofClass op c a b⟩

example : TVersion.eq ⟨0, exVersion [1]⟩ ⟨0, exVersion [1, 0]⟩ = true ∧ TVersion.eq ⟨0, exVersion [1]⟩ ⟨1, exVersion [1]⟩ = false ∧
    TVersion.ord .le ⟨0, exVersion [1]⟩ ⟨1, exVersion [1]⟩ = .error .typeError ∧
    TVersion.ord .lt ⟨1, exVersion [1]⟩ ⟨1, exVersion [2]⟩ = .ok true := by decide +kernel

/-! ## One class -/

/-- An end of the one-class model in the class `c`. -/
def Ext.ofClass (c : Nat) : Ext Version → Ext TVersion
  | .negInf => .negInf
  | .fin v => .fin ⟨c, v⟩
  | .posInf => .posInf

theorem extLt_ofClass (c : Nat) (x y : Ext Version) : TVersion.extLt (x.ofClass c) (y.ofClass c) = .ok (PyCmp.lt x y) := by
  cases x <;> cases y <;> first | rfl | exact TVersion.ord_ofClass _ _ _ _
theorem extGt_ofClass (c : Nat) (x y : Ext Version) : TVersion.extGt (x.ofClass c) (y.ofClass c) = .ok (PyCmp.gt x y) := by
  cases x <;> cases y <;> first | rfl | exact TVersion.ord_ofClass _ _ _ _
theorem extEq_ofClass (c : Nat) (x y : Ext Version) : TVersion.extEq (x.ofClass c) (y.ofClass c) = PyCmp.eq x y := by
  cases x <;> cases y <;> first | rfl | exact TVersion.eq_ofClass _ _ _

theorem tOptEq_ofClass (c : Nat) (x y : Option Version) :
    TVersion.optEq (x.map (⟨c, ·⟩)) (y.map (⟨c, ·⟩)) = optEq x y := by
  cases x <;> cases y <;> first | rfl | exact TVersion.eq_ofClass _ _ _

theorem ofClass_fields (c : Nat) (i : Item) : (i.ofClass c).fields =
    ⟨i.min.map (⟨c, ·⟩), i.max.map (⟨c, ·⟩), i.includeMin, i.includeMax⟩ := by cases i <;> rfl

theorem ofClass_min (c : Nat) (i : Item) : (i.ofClass c).comparableMin = i.comparableMin.ofClass c := by
  simp only [TItem.comparableMin, ofClass_fields, Item.comparableMin]
  cases i.min <;> rfl

theorem ofClass_max (c : Nat) (i : Item) : (i.ofClass c).comparableMax = i.comparableMax.ofClass c := by
  simp only [TItem.comparableMax, ofClass_fields, Item.comparableMax]
  cases i.max <;> rfl

section
variable (c : Nat) (a b : Item)

theorem isLower_ofClass : (a.ofClass c).isLower (b.ofClass c) = .ok (a.isLower b) := by
  simp only [TItem.isLower, ofClass_min, extLt_ofClass, extGt_ofClass, ofClass_fields, Item.isLower, bind, Except.bind]
  split <;> [rfl; (split <;> rfl)]
theorem isHigher_ofClass : (a.ofClass c).isHigher (b.ofClass c) = .ok (a.isHigher b) := by
  simp only [TItem.isHigher, ofClass_max, extLt_ofClass, extGt_ofClass, ofClass_fields, Item.isHigher, bind, Except.bind]
  split <;> [rfl; (split <;> rfl)]
theorem isStrictlyLower_ofClass : (a.ofClass c).isStrictlyLower (b.ofClass c) = .ok (a.isStrictlyLower b) := by
  simp only [TItem.isStrictlyLower, ofClass_min, ofClass_max, extLt_ofClass, extGt_ofClass, ofClass_fields, Item.isStrictlyLower,
    bind, Except.bind]
  split <;> [rfl; (split <;> rfl)]
theorem isStrictlyHigher_ofClass : (a.ofClass c).isStrictlyHigher (b.ofClass c) = .ok (a.isStrictlyHigher b) := by
  simp only [TItem.isStrictlyHigher, ofClass_min, ofClass_max, extLt_ofClass, extGt_ofClass, ofClass_fields, Item.isStrictlyHigher,
    bind, Except.bind]
  split <;> [rfl; (split <;> rfl)]
theorem isAdjacent_ofClass : (a.ofClass c).isAdjacent (b.ofClass c) = a.isAdjacent b := by
  simp only [TItem.isAdjacent, ofClass_fields, tOptEq_ofClass]; rfl
theorem itemEq_ofClass : (a.ofClass c).eq (b.ofClass c) = a.eq b := by
  simp only [TItem.eq, ofClass_fields, tOptEq_ofClass]; rfl
theorem compare_ofClass : (a.ofClass c).compare (b.ofClass c) = .ok (a.compare b) := by
  simp only [TItem.compare, ofClass_min, ofClass_max, extLt_ofClass, extGt_ofClass, ofClass_fields, Item.compare, Item.excludeMin,
    Item.excludeMax, bind, Except.bind]
  split_ifs <;> simp_all

theorem isPoint_ofClass : (a.ofClass c).isPoint = a.isPoint := by
  cases a with
  | range r =>
    have h := extEq_ofClass c (Item.range r).comparableMin (Item.range r).comparableMax
    rw [← ofClass_min, ← ofClass_max] at h
    simp only [Item.ofClass] at h ⊢
    simp only [TItem.isPoint, h]; rfl
  | point v => rfl
theorem isEmpty_ofClass : (a.ofClass c).isEmpty = a.isEmpty := by
  cases a with
  | range r =>
    have h := extEq_ofClass c (Item.range r).comparableMin (Item.range r).comparableMax
    rw [← ofClass_min, ← ofClass_max] at h
    simp only [Item.ofClass] at h ⊢
    simp only [TItem.isEmpty, h]; rfl
  | point v => rfl
theorem isUniversal_ofClass : (a.ofClass c).isUniversal = a.isUniversal := by
  cases a with
  | range r => simp [Item.ofClass, TItem.isUniversal, Item.isUniversal, Item.isUnbounded, Item.min, Item.max, Item.fields]
  | point v => rfl
theorem version_ofClass : (a.ofClass c).version = a.version.map (⟨c, ·⟩) := by
  cases a with
  | range r =>
    have h := isPoint_ofClass c (.range r)
    simp only [Item.ofClass] at h ⊢
    simp only [TItem.version, h, Item.version, Item.versionUnchecked, Item.min, Item.max, Item.fields]
    split
    · cases r.min <;> cases r.max <;> rfl
    · rfl
  | point v => rfl

theorem contains_ofClass (v : Version) : (a.ofClass c).contains ⟨c, v⟩ = .ok (a.contains v) := by
  cases a with
  | range r =>
    have h1 : ∀ x, TVersion.extLt (.fin ⟨c, v⟩) (Ext.ofClass c x) = .ok (PyCmp.lt (.fin v) x) := extLt_ofClass c (.fin v)
    have h2 : ∀ x, TVersion.extGt (.fin ⟨c, v⟩) (Ext.ofClass c x) = .ok (PyCmp.gt (.fin v) x) := extGt_ofClass c (.fin v)
    have h3 : ∀ x, TVersion.extEq (.fin ⟨c, v⟩) (Ext.ofClass c x) = PyCmp.eq (.fin v) x := extEq_ofClass c (.fin v)
    have h4 := ofClass_min c (.range r)
    have h5 := ofClass_max c (.range r)
    simp only [Item.ofClass] at h4 h5 ⊢
    simp only [TItem.contains, h4, h5, h1, h2, h3, Item.contains, Item.excludeMin, Item.excludeMax, Item.includeMin, Item.includeMax,
      Item.fields, bind, Except.bind]
    rcases Bool.eq_false_or_eq_true (PyCmp.lt (Ext.fin v) (Item.range r).comparableMin) with e1 | e1 <;>
      rcases Bool.eq_false_or_eq_true (!r.includeMin && PyCmp.eq (Ext.fin v) (Item.range r).comparableMin) with e2 | e2 <;>
      rcases Bool.eq_false_or_eq_true (PyCmp.gt (Ext.fin v) (Item.range r).comparableMax) with e3 | e3 <;>
      rcases Bool.eq_false_or_eq_true (!r.includeMax && PyCmp.eq (Ext.fin v) (Item.range r).comparableMax) with e4 | e4 <;>
      simp only [e1, e2, e3, e4, if_true, Bool.false_eq_true, if_false]
  | point w => exact congrArg _ (TVersion.eq_ofClass c w v)

theorem mkRange_ofClass (x y : Option Version) (p q : Bool) :
    TItem.mkRange (x.map (⟨c, ·⟩)) (y.map (⟨c, ·⟩)) p q = (Item.mkRange x y p q).map (·.ofClass c) := by
  have h4 := ofClass_min c (.range ⟨x, y, p, q⟩)
  have h5 := ofClass_max c (.range ⟨x, y, p, q⟩)
  simp only [Item.ofClass] at h4 h5
  simp only [TItem.mkRange, h4, h5, extGt_ofClass, Item.mkRange, bind, Except.bind, Option.isNone_map]
  split_ifs <;> rfl

theorem includes_ofClass : (a.ofClass c).includes (b.ofClass c) = .ok (a.includesItem b) := by
  cases a with
  | range r =>
    cases b with
    | range s =>
      have h1 := isLower_ofClass c (.range s) (.range r)
      have h2 := isHigher_ofClass c (.range s) (.range r)
      simp only [Item.ofClass] at h1 h2 ⊢
      simp only [TItem.includes, h1, h2, Item.includesItem, bind, Except.bind]
      split <;> simp_all
    | point w => exact contains_ofClass c (.range r) w
  | point v =>
    cases b with
    | range s => exact congrArg _ (isEmpty_ofClass c (.range s))
    | point w => exact contains_ofClass c (.point v) w

theorem intersects_ofClass : (a.ofClass c).intersects (b.ofClass c) = .ok (a.intersectsItem b) := by
  cases a with
  | range r =>
    cases b with
    | range s =>
      have h1 := isStrictlyLower_ofClass c (.range s) (.range r)
      have h2 := isStrictlyHigher_ofClass c (.range s) (.range r)
      simp only [Item.ofClass] at h1 h2 ⊢
      simp only [TItem.intersects, h1, h2, Item.intersectsItem, bind, Except.bind]
      split <;> simp_all
    | point w => exact contains_ofClass c (.range r) w
  | point v =>
    cases b with
    | range s => exact contains_ofClass c (.range s) v
    | point w => exact contains_ofClass c (.point w) v

theorem intersection_ofClass : (a.ofClass c).intersection (b.ofClass c) = (a.intersectionItem b).map (·.ofClass c) := by
  cases a with
  | range r =>
    cases b with
    | range s =>
      have h1 := isLower_ofClass c (.range r) (.range s)
      have h2 := isHigher_ofClass c (.range r) (.range s)
      have h3 := isStrictlyLower_ofClass c (.range r) (.range s)
      have h4 := isStrictlyHigher_ofClass c (.range r) (.range s)
      have key : ∀ (x y : Option Version) (p q : Bool), (do
          let t ← TItem.mkRange (x.map (⟨c, ·⟩)) (y.map (⟨c, ·⟩)) p q
          if t.isPoint then .ok (.item (.point (← t.version))) else .ok (.item t) : Except PyErr TSet) =
          (do let t ← Item.mkRange x y p q
              if t.isPoint then .ok (.item (.point (← t.version))) else .ok (.item t) : Except PyErr VSet).map (·.ofClass c) := by
        intro x y p q
        rw [mkRange_ofClass]
        cases Item.mkRange x y p q with
        | error e => rfl
        | ok t =>
          simp only [Except.map, bind, Except.bind, isPoint_ofClass, version_ofClass]
          split
          · cases t.version <;> rfl
          · rfl
      simp only [Item.ofClass] at h1 h2 h3 h4 ⊢
      simp only [TItem.intersection, h1, h2, bind, Except.bind, Item.intersectionItem]
      simp only [bind, Except.bind] at key
      rcases Bool.eq_false_or_eq_true ((Item.range r).isLower (.range s)) with hl | hl <;>
        rcases Bool.eq_false_or_eq_true ((Item.range r).isHigher (.range s)) with hh | hh <;>
        simp only [hl, hh, h3, h4, if_true, if_false, Bool.true_and, Bool.false_and, Bool.not_true, Bool.not_false,
          Bool.false_eq_true] <;>
        (split <;> [rfl; exact key _ _ _ _])
    | point w =>
      have h := contains_ofClass c (.range r) w
      simp only [Item.ofClass] at h ⊢
      simp only [TItem.intersection, h, bind, Except.bind, Item.intersectionItem]
      split <;> rfl
  | point v =>
    have h := contains_ofClass c b v
    simp only [Item.ofClass] at h ⊢
    simp only [TItem.intersection, h, bind, Except.bind, Item.intersectionItem]
    split <;> rfl

end

theorem sortItems_pair (a b : Item) : VSet.sortItems [a, b] = if b.lt a then [b, a] else [a, b] := by
  simp only [VSet.sortItems, List.insertionSort_cons, List.insertionSort_nil, List.orderedInsert]
  cases b.lt a <;> simp

theorem unionOf_ofClass (c : Nat) {f : Item → Item → Except PyErr VSet} {g : TItem → TItem → Except PyErr TSet}
    (h : ∀ a b, g (a.ofClass c) (b.ofClass c) = (f a b).map (·.ofClass c)) (a b : Item) :
    TItem.unionOf g (a.ofClass c) (b.ofClass c) = (VSet.mergeItems f [a, b]).map (·.ofClass c) := by
  have key : ∀ x y : Item, (do
      if (← (x.ofClass c).intersects (y.ofClass c)) || (x.ofClass c).isAdjacent (y.ofClass c) then
        match ← g (x.ofClass c) (y.ofClass c) with
        | .item result => .ok (.item result)
        | _ => .error .internalError
      else .ok (.union [x.ofClass c, y.ofClass c]) : Except PyErr TSet) =
      (do match ← VSet.mergeLoop f [] [x, y] with
        | [i] => .ok (.item i)
        | merged => VSet.mkUnion merged.reverse : Except PyErr VSet).map (·.ofClass c) := by
    intro x y
    simp only [VSet.mergeLoop, intersects_ofClass, isAdjacent_ofClass, h, bind, Except.bind]
    split
    · cases f x y with
      | error e => rfl
      | ok s => cases s <;> rfl
    · rfl
  simp only [TItem.unionOf, isUniversal_ofClass, VSet.mergeItems, List.isEmpty_cons, List.any_cons, List.any_nil, Bool.or_false,
    Bool.false_eq_true, if_false]
  split
  · rfl
  · rw [sortItems_pair, compare_ofClass]
    simp only [bind, Except.bind, Item.lt] at key ⊢
    rcases Bool.eq_false_or_eq_true (b.compare a == .lt) with hc | hc
    · simp only [hc, if_true]; exact key b a
    · simp only [hc, Bool.false_eq_true, if_false]; exact key a b

theorem union_ofClass (c : Nat) : ∀ (lim : Nat) (a b : Item),
    (a.ofClass c).union lim (b.ofClass c) = (a.unionItem lim b).map (·.ofClass c)
  | 0, a, b => by cases a <;> cases b <;> rfl
  | lim + 1, .range r, .point v => by
    have h1 := contains_ofClass c (.range r) v
    have h2 := unionOf_ofClass c (union_ofClass c lim) (.range r) (.point v)
    have h3 := tOptEq_ofClass c (some v)
    simp only [Item.ofClass, Option.map_some] at h1 h2 h3 ⊢
    simp only [TItem.union, Item.unionItem, h1, h2, h3, bind, Except.bind, mkRange_ofClass, Item.min, Item.max, Item.fields,
      Item.includeMin, Item.includeMax]
    rcases Bool.eq_false_or_eq_true ((Item.range r).contains v) with h4 | h4 <;>
      rcases Bool.eq_false_or_eq_true (optEq (some v) r.min) with h5 | h5 <;>
      rcases Bool.eq_false_or_eq_true (optEq (some v) r.max) with h6 | h6 <;>
      simp only [h4, h5, h6, if_true, Bool.false_eq_true, if_false] <;>
      first
      | rfl
      | (cases Item.mkRange r.min r.max true r.includeMax <;> rfl)
      | (cases Item.mkRange r.min r.max r.includeMin true <;> rfl)
  | lim + 1, .range r, .range s => by
    have h1 := isAdjacent_ofClass c (.range r) (.range s)
    have h2 := unionOf_ofClass c (union_ofClass c lim) (.range r) (.range s)
    have h3 := intersects_ofClass c (.range r) (.range s)
    have h4 := isLower_ofClass c (.range r) (.range s)
    have h5 := isHigher_ofClass c (.range r) (.range s)
    have key : ∀ (x y : Option Version) (p q : Bool), (do
        .ok (.item (← TItem.mkRange (x.map (⟨c, ·⟩)) (y.map (⟨c, ·⟩)) p q)) : Except PyErr TSet) =
        (do .ok (.item (← Item.mkRange x y p q)) : Except PyErr VSet).map (·.ofClass c) := by
      intro x y p q
      rw [mkRange_ofClass]
      cases Item.mkRange x y p q <;> rfl
    simp only [Item.ofClass] at h1 h2 h3 h4 h5 ⊢
    simp only [TItem.union, Item.unionItem, h1, h2, h3, h4, h5, bind, Except.bind] at key ⊢
    rcases Bool.eq_false_or_eq_true ((Item.range r).isAdjacent (.range s)) with h6 | h6 <;>
      rcases Bool.eq_false_or_eq_true ((Item.range r).intersectsItem (.range s)) with h7 | h7 <;>
      rcases Bool.eq_false_or_eq_true ((Item.range r).isLower (.range s)) with h8 | h8 <;>
      rcases Bool.eq_false_or_eq_true ((Item.range r).isHigher (.range s)) with h9 | h9 <;>
      simp only [h6, h7, h8, h9, Bool.not_true, Bool.not_false, Bool.and_true, Bool.and_false, Bool.false_eq_true, if_true,
        if_false] <;> exact key _ _ _ _
  | lim + 1, .point v, .point w => by
    have h1 := contains_ofClass c (.point v) w
    have h2 := unionOf_ofClass c (union_ofClass c lim) (.point v) (.point w)
    simp only [Item.ofClass] at h1 h2 ⊢
    simp only [TItem.union, Item.unionItem, h1, h2, bind, Except.bind]
    split <;> rfl
  | lim + 1, .point v, .range s => by
    have h1 := contains_ofClass c (.range s) v
    have h2 := unionOf_ofClass c (union_ofClass c lim) (.point v) (.range s)
    simp only [Item.ofClass] at h1 h2 ⊢
    simp only [TItem.union, Item.unionItem, h1, h2, bind, Except.bind]
    split <;> rfl

theorem matches_ofClass (c : Nat) (t : OpType) (v a : Version) : t.matchesT ⟨c, v⟩ ⟨c, a⟩ = t.matches_ v a := by
  have chain : ∀ next, TVersion.chained next ⟨c, v⟩ ⟨c, a⟩ = Version.chained next v a := by
    intro next
    simp only [TVersion.chained, Version.chained, TVersion.ord_ofClass, bind, Except.bind, PyCmp.op]
  have wild : TVersion.matchesWildcardEqual ⟨c, v⟩ ⟨c, a⟩ = Version.matchesWildcardEqual v a := by
    simp only [TVersion.matchesWildcardEqual, Version.matchesWildcardEqual, TVersion.ord_ofClass, bind, Except.bind, PyCmp.op]
    cases a.nextWildcardBreaking with
    | error e => rfl
    | ok o =>
      cases o with
      | none => rfl
      | some w => simp only; cases PyCmp.le a v <;> simp
  cases t <;> simp only [OpType.matchesT, OpType.matches_, chain, wild, TVersion.eq_ofClass, TVersion.ne_ofClass, TVersion.ord_ofClass] <;>
    first | done | rfl

mutual
theorem accepts_ofClass (c : Nat) (v : Version) : ∀ s : Specifier, (s.ofClass c).accepts ⟨c, v⟩ = s.accepts v
  | .never => rfl
  | .always => rfl
  | .one o => matches_ofClass c o.type v o.version
  | .any l => anyAccepts_ofClass c v l
  | .all l => allAccepts_ofClass c v l
theorem anyAccepts_ofClass (c : Nat) (v : Version) :
    ∀ l : List Specifier, TSpecifier.anyAccepts (Specifier.ofClassList c l) ⟨c, v⟩ = Specifier.anyAccepts l v
  | [] => rfl
  | s :: rest => by
    simp only [Specifier.ofClassList, TSpecifier.anyAccepts, Specifier.anyAccepts, accepts_ofClass c v s, anyAccepts_ofClass c v rest]
theorem allAccepts_ofClass (c : Nat) (v : Version) :
    ∀ l : List Specifier, TSpecifier.allAccepts (Specifier.ofClassList c l) ⟨c, v⟩ = Specifier.allAccepts l v
  | [] => rfl
  | s :: rest => by
    simp only [Specifier.ofClassList, TSpecifier.allAccepts, Specifier.allAccepts, accepts_ofClass c v s, allAccepts_ofClass c v rest]
end

theorem setContains_ofClass (c : Nat) (s : VSet) (v : Version) : (s.ofClass c).contains ⟨c, v⟩ = .ok (s.contains v) := by
  have : ∀ l : List Item, TSet.anyContains (l.map (·.ofClass c)) ⟨c, v⟩ = .ok (l.any (·.contains v)) := by
    intro l
    induction l with
    | nil => rfl
    | cons i l ih =>
      simp only [List.map_cons, TSet.anyContains, contains_ofClass, bind, Except.bind, ih, List.any_cons]
      cases i.contains v <;> simp
  cases s with
  | empty => rfl
  | item i => exact contains_ofClass c i v
  | union l => exact this l

mutual
theorem specEq_ofClass (c : Nat) : ∀ s t : Specifier, (s.ofClass c).eq (t.ofClass c) = s.eq t
  | .never, t => by cases t <;> simp [Specifier.ofClass, TSpecifier.eq, Specifier.eq]
  | .always, t => by cases t <;> simp [Specifier.ofClass, TSpecifier.eq, Specifier.eq]
  | .one o, t => by
    cases t <;> simp [Specifier.ofClass, TSpecifier.eq, Specifier.eq, TVersion.eq_ofClass, Operator.eq]
  | .any l, t => by
    cases t with
    | any l' => exact specListEq_ofClass c l l'
    | _ => simp [Specifier.ofClass, TSpecifier.eq, Specifier.eq]
  | .all l, t => by
    cases t with
    | all l' => exact specListEq_ofClass c l l'
    | _ => simp [Specifier.ofClass, TSpecifier.eq, Specifier.eq]
theorem specListEq_ofClass (c : Nat) : ∀ l l' : List Specifier,
    TSpecifier.eqList (Specifier.ofClassList c l) (Specifier.ofClassList c l') = Specifier.eqList l l'
  | [], [] => by simp [Specifier.ofClassList, TSpecifier.eqList, Specifier.eqList]
  | [], _ :: _ => by simp [Specifier.ofClassList, TSpecifier.eqList, Specifier.eqList]
  | _ :: _, [] => by simp [Specifier.ofClassList, TSpecifier.eqList, Specifier.eqList]
  | s :: l, t :: l' => by
    simp only [Specifier.ofClassList, TSpecifier.eqList, Specifier.eqList, specEq_ofClass c s t, specListEq_ofClass c l l']
end

theorem setEq_ofClass (c : Nat) (s t : VSet) : (s.ofClass c).eq (t.ofClass c) = s.eq t := by
  cases s <;> cases t <;> simp [VSet.ofClass, TSet.eq, VSet.eq, itemEq_ofClass, List.zip_map, List.all_map, Function.comp_def]

/-- C99. With versions of one class only, the class makes no difference: specifiers accept and compare, sets contain and
compare, items include, intersect, meet and unite as in the one-class model, failures included, and every version of a result
has that class. -/
theorem C99_one_class (c : Nat) :
    (∀ (s : Specifier) (v : Version), (s.ofClass c).accepts ⟨c, v⟩ = s.accepts v) ∧
    (∀ (s : VSet) (v : Version), (s.ofClass c).contains ⟨c, v⟩ = .ok (s.contains v)) ∧
    (∀ s t : Specifier, (s.ofClass c).eq (t.ofClass c) = s.eq t) ∧ (∀ s t : VSet, (s.ofClass c).eq (t.ofClass c) = s.eq t) ∧
    ∀ a b : Item, (a.ofClass c).includes (b.ofClass c) = .ok (a.includesItem b) ∧
      (a.ofClass c).intersects (b.ofClass c) = .ok (a.intersectsItem b) ∧
      (a.ofClass c).intersection (b.ofClass c) = (a.intersectionItem b).map (·.ofClass c) ∧
      ∀ lim, (a.ofClass c).union lim (b.ofClass c) = (a.unionItem lim b).map (·.ofClass c) :=
  ⟨fun s v => accepts_ofClass c v s, setContains_ofClass c, specEq_ofClass c, setEq_ofClass c, fun a b =>
    ⟨includes_ofClass c a b, intersects_ofClass c a b, intersection_ofClass c a b, fun lim => union_ofClass c lim a b⟩⟩

example : ((Item.range ⟨some (exVersion [1]), some (exVersion [2]), true, false⟩).ofClass 1).union 5
      ((Item.range ⟨some (exVersion [2]), none, true, false⟩).ofClass 1) =
      .ok (.item (.range ⟨some ⟨1, exVersion [1]⟩, none, true, false⟩)) ∧
    ((Item.point (exVersion [3])).ofClass 1).intersects ((Item.range ⟨some (exVersion [2]), none, true, false⟩).ofClass 1) =
      .ok true := by decide +kernel

/-! ## Two classes -/

/-- The item has no end: it holds no version. -/
def Item.Endless (i : Item) : Prop := i.min = none ∧ i.max = none

instance (i : Item) : Decidable i.Endless := inferInstanceAs (Decidable (_ ∧ _))

theorem wildcard_some {a : Version} (ha : a.Valid)
    (hf : ¬ (a.release.precision = 1 ∧ a.pre = none ∧ a.post = none ∧ a.dev = none)) :
    ∃ w, a.nextWildcardBreaking = .ok (some w) := by
  have hpos : 0 < a.release.precision := (precision_pos_iff _).2 ha.release
  rcases wildcard_spec ha with ⟨-, w2, w3, w4⟩
  by_cases hs : a.isStable = true
  · obtain ⟨p1, p2⟩ := (stable_iff a).1 hs
    by_cases hp : a.post = none
    · have : 2 ≤ a.release.precision := by
        by_contra hc
        exact hf ⟨by omega, p1, hp, p2⟩
      obtain ⟨w, hw, -⟩ := w2 p1 hp p2 this
      exact ⟨w, hw⟩
    · obtain ⟨w, hw, -⟩ := w3 p1 hp p2
      exact ⟨w, hw⟩
  · obtain ⟨w, hw, -⟩ := w4 (by simpa using hs)
    exact ⟨w, hw⟩

/-- C99. The outcome of every operator on a foreign version, whatever the two versions are. -/
theorem C99_operator (o : Operator) (ho : o.version.Valid) (c d : Nat) (h : c ≠ d) (v : Version) :
    ((Specifier.one o).ofClass c).accepts ⟨d, v⟩ =
      match o.type with
      | .equal | .doubleEqual => .ok false
      | .notEqual => .ok true
      | .wildcardEqual | .wildcardDoubleEqual =>
        if o.version.release.precision = 1 ∧ o.version.pre = none ∧ o.version.post = none ∧ o.version.dev = none then .ok true
        else .error .typeError
      | .wildcardNotEqual =>
        if o.version.release.precision = 1 ∧ o.version.pre = none ∧ o.version.post = none ∧ o.version.dev = none then .ok false
        else .error .typeError
      | _ => .error .typeError := by
  obtain ⟨t, a⟩ := o
  simp only at ho ⊢
  have h1 : ∀ op, TVersion.ord op ⟨c, a⟩ ⟨d, v⟩ = .error .typeError := fun op => TVersion.ord_foreign op h
  have h2 : ∀ op, TVersion.ord op ⟨d, v⟩ ⟨c, a⟩ = .error .typeError := fun op => TVersion.ord_foreign op h.symm
  have hw : TVersion.matchesWildcardEqual ⟨d, v⟩ ⟨c, a⟩ =
      if a.release.precision = 1 ∧ a.pre = none ∧ a.post = none ∧ a.dev = none then .ok true else .error .typeError := by
    split
    · rename_i hf
      simp [TVersion.matchesWildcardEqual, (wildcard_spec ho).1 hf.2.1 hf.2.2.1 hf.2.2.2 hf.1, bind, Except.bind]
    · rename_i hf
      obtain ⟨w, hw⟩ := wildcard_some ho hf
      simp [TVersion.matchesWildcardEqual, hw, bind, Except.bind, h1]
  cases t <;>
    simp only [Specifier.ofClass, TSpecifier.accepts, OpType.matchesT, TVersion.chained, h1, h2, hw, bind, Except.bind,
      TVersion.eq_foreign (a := ⟨d, v⟩) (b := ⟨c, a⟩) h.symm, TVersion.ne_foreign (a := ⟨d, v⟩) (b := ⟨c, a⟩) h.symm]
  by_cases hf : a.release.precision = 1 ∧ a.pre = none ∧ a.post = none ∧ a.dev = none
  · simp only [if_pos hf, Bool.not_true]
  · simp only [if_neg hf]

example : ((Specifier.one ⟨.caret, exVersion [1]⟩).ofClass 0).accepts ⟨1, exVersion [1]⟩ = .error .typeError ∧
    ((Specifier.one ⟨.notEqual, exVersion [1]⟩).ofClass 0).accepts ⟨1, exVersion [1]⟩ = .ok true ∧
    ((Specifier.one ⟨.wildcardEqual, exVersion [0]⟩).ofClass 0).accepts ⟨1, exVersion [7]⟩ = .ok true ∧
    ((Specifier.one ⟨.wildcardEqual, exVersion [1, 0]⟩).ofClass 0).accepts ⟨1, exVersion [1, 2]⟩ = .error .typeError := by
  decide +kernel

theorem foreign_contains (i : Item) {c d : Nat} (h : c ≠ d) (v : Version) : (i.ofClass c).contains ⟨d, v⟩ =
    match i with
    | .point _ => .ok false
    | .range r => if r.min = none ∧ r.max = none then .ok true else .error .typeError := by
  cases i with
  | point w => exact congrArg _ (TVersion.eq_foreign (a := ⟨c, w⟩) (b := ⟨d, v⟩) h)
  | range r =>
    obtain ⟨x, y, p, q⟩ := r
    have h2 : ∀ op w, TVersion.ord op ⟨d, v⟩ ⟨c, w⟩ = .error .typeError := fun op w => TVersion.ord_foreign op h.symm
    cases x <;> cases y <;>
      simp [Item.ofClass, TItem.contains, TItem.comparableMin, TItem.comparableMax, TItem.fields, TVersion.extLt, TVersion.extGt,
        TVersion.extEq, NegativeInfinity.gt, NegativeInfinity.eq, Infinity.lt, Infinity.eq, Ext.isNegativeInfinity, Ext.isInfinity,
        h2, bind, Except.bind]

theorem foreign_any {l : List Item} {c d : Nat} (h : c ≠ d) (v : Version) (hl : ∀ i ∈ l, ¬ i.Endless) :
    ((∃ r, Item.range r ∈ l) → TSet.anyContains (l.map (·.ofClass c)) ⟨d, v⟩ = .error .typeError) ∧
    ((∀ r, Item.range r ∉ l) → TSet.anyContains (l.map (·.ofClass c)) ⟨d, v⟩ = .ok false) := by
  induction l with
  | nil => simp [TSet.anyContains]
  | cons i l ih =>
    obtain ⟨ih1, ih2⟩ := ih fun j hj => hl j (List.mem_cons_of_mem _ hj)
    cases i with
    | range r =>
      have : ¬ (r.min = none ∧ r.max = none) := hl _ (List.mem_cons_self ..)
      refine ⟨fun _ => ?_, fun hn => absurd (List.mem_cons_self ..) (hn r)⟩
      simp [TSet.anyContains, foreign_contains _ h, this, bind, Except.bind]
    | point w =>
      refine ⟨fun hr => ?_, fun hr => ?_⟩
      · obtain ⟨r, hr⟩ := hr
        simp only [List.map_cons, TSet.anyContains, foreign_contains _ h, bind, Except.bind, Bool.false_eq_true, if_false]
        exact ih1 ⟨r, by simpa using hr⟩
      · simp only [List.map_cons, TSet.anyContains, foreign_contains _ h, bind, Except.bind, Bool.false_eq_true, if_false]
        exact ih2 fun r hm => hr r (List.mem_cons_of_mem _ hm)

/-- The items of a union in normal form have an end. -/
theorem normal_ends {l : List Item} (hl : (VSet.union l).Normal) {i : Item} (hi : i ∈ l) : ¬ i.Endless := by
  obtain ⟨h1, -, h3⟩ := hl
  obtain ⟨l1, l2, rfl⟩ := List.append_of_mem hi
  rintro ⟨e1, e2⟩
  rw [List.pairwise_append] at h3
  cases l2 with
  | cons j l2 =>
    obtain ⟨x, -, hx, -⟩ := (List.pairwise_cons.1 h3.2.1).1 j (List.mem_cons_self ..)
    rw [e2] at hx; cases hx
  | nil =>
    cases l1 with
    | nil => simp at h1
    | cons j l1 =>
      obtain ⟨-, y, -, hy, -⟩ := h3.2.2 j (List.mem_cons_self ..) i (List.mem_cons_self ..)
      rw [e1] at hy; cases hy

/-- C99. Whether a set contains a foreign version: yes if it is the universal set; `TypeError` if it has a range with an
end; no if it consists of points. -/
theorem C99_contains (s : VSet) (hs : s.Normal) (c d : Nat) (h : c ≠ d) (v : Version) :
    ((∃ i, s = .item i ∧ i.Endless) → (s.ofClass c).contains ⟨d, v⟩ = .ok true) ∧
    ((∃ r, Item.range r ∈ s.extract ∧ ¬ (Item.range r).Endless) → (s.ofClass c).contains ⟨d, v⟩ = .error .typeError) ∧
    ((∀ r, Item.range r ∉ s.extract) → (s.ofClass c).contains ⟨d, v⟩ = .ok false) := by
  cases s with
  | empty => simp [VSet.extract, VSet.ofClass, TSet.contains]
  | item i =>
    refine ⟨?_, ?_, fun hr => ?_⟩
    · rintro ⟨j, he, h1⟩
      cases he
      rw [VSet.ofClass, TSet.contains, foreign_contains _ h]
      cases i with
      | range r => exact if_pos h1
      | point w => exact absurd h1.1 (by simp [Item.min, Item.fields])
    · rintro ⟨r, hr, h1⟩
      obtain rfl : Item.range r = i := by simpa [VSet.extract] using hr
      rw [VSet.ofClass, TSet.contains, foreign_contains _ h]
      exact if_neg h1
    · cases i with
      | range r => exact absurd (by simp [VSet.extract]) (hr r)
      | point w => rw [VSet.ofClass, TSet.contains, foreign_contains _ h]
  | union l =>
    obtain ⟨h1, h2⟩ := foreign_any h v fun i hi => normal_ends hs hi
    exact ⟨fun ⟨_, he, _⟩ => (by cases he), fun ⟨r, hr, _⟩ => h1 ⟨r, hr⟩, h2⟩

example : ((exRange (some [1]) (some [2]) true false).ofClass 0).contains ⟨1, exVersion [1]⟩ = .error .typeError ∧
    ((exPoint [1]).ofClass 0).contains ⟨1, exVersion [1]⟩ = .ok false ∧
    (VSet.universal.ofClass 0).contains ⟨1, exVersion [1]⟩ = .ok true := by decide +kernel

theorem cov_bot_range {l : List Item} (h : Cov l ⊥) : ∃ r, Item.range r ∈ l := by
  obtain ⟨i, hi, h1, -⟩ := h
  cases i with
  | range r => exact ⟨r, hi⟩
  | point w => exact absurd h1 (not_le_of_gt (bot_lt_cutAt w false))

theorem foreign_window (a w : Version) {c d : Nat} (h : c ≠ d) (v : Version) :
    ((window a w).ofClass c).contains ⟨d, v⟩ = .error .typeError := by
  rw [window, VSet.ofClass, TSet.contains, foreign_contains _ h]
  exact if_neg (by simp)

theorem foreign_cobounded {items : List Item} (hn : (VSet.union items).Normal) (hc : (VSet.union items).Cov ⊥) {c d : Nat}
    (h : c ≠ d) (v : Version) : ((VSet.union items).ofClass c).contains ⟨d, v⟩ = .error .typeError := by
  obtain ⟨r, hr⟩ := cov_bot_range hc
  exact (C99_contains _ hn c d h v).2.1 ⟨r, hr, normal_ends hn hr⟩

/-- C99, finding. C15 (an operator accepts what its set contains) extends to foreign versions, failures included, for every
operator but one: `!= a` accepts every foreign version, while asking its set raises `TypeError`. -/
theorem C99_translation (o : Operator) (ho : o.version.Valid) (lim : Nat) (s : VSet) (hs : o.toSet lim = .ok s) (c d : Nat)
    (h : c ≠ d) (v : Version) :
    (o.type ≠ .notEqual → (s.ofClass c).contains ⟨d, v⟩ = ((Specifier.one o).ofClass c).accepts ⟨d, v⟩) ∧
    (o.type = .notEqual → ((Specifier.one o).ofClass c).accepts ⟨d, v⟩ = .ok true ∧
      (s.ofClass c).contains ⟨d, v⟩ = .error .typeError) := by
  rw [C99_operator o ho c d h v]
  obtain ⟨t, a⟩ := o
  simp only at ho ⊢
  have simple : ∀ x y p q, ¬ (x = none ∧ y = none) →
      ((VSet.item (.range ⟨x, y, p, q⟩)).ofClass c).contains ⟨d, v⟩ = .error .typeError := by
    intro x y p q hx
    rw [VSet.ofClass, TSet.contains, foreign_contains _ h]
    exact if_neg hx
  have chain : ∀ next : Version → Except PyErr Version,
      (do .ok (.item (← Item.mkRange (some a) (some (← next a)) true false)) : Except PyErr VSet) = .ok s →
      (s.ofClass c).contains ⟨d, v⟩ = .error .typeError := by
    intro next hn
    cases hw : next a with
    | error e => rw [hw] at hn; simp [bind, Except.bind] at hn
    | ok w =>
      rw [range_translate hw] at hn
      split at hn
      · cases hn
      · cases hn; exact foreign_window a w h v
  have wild : a.translateWildcardEqual = .ok s → (s.ofClass c).contains ⟨d, v⟩ =
      if a.release.precision = 1 ∧ a.pre = none ∧ a.post = none ∧ a.dev = none then .ok true else .error .typeError := by
    intro hn
    split
    · rename_i hf
      rw [wildcard_translate_star ((wildcard_spec ho).1 hf.2.1 hf.2.2.1 hf.2.2.2 hf.1)] at hn
      cases hn
      exact (C99_contains .universal universal_normal c d h v).1 ⟨_, rfl, rfl, rfl⟩
    · rename_i hf
      obtain ⟨w, hw⟩ := wildcard_some ho hf
      rw [wildcard_translate hw] at hn
      split at hn
      · cases hn
      · cases hn; exact foreign_window a w h v
  have wildNot : a.translateWildcardNotEqual lim = .ok s → (s.ofClass c).contains ⟨d, v⟩ =
      if a.release.precision = 1 ∧ a.pre = none ∧ a.post = none ∧ a.dev = none then .ok false else .error .typeError := by
    intro hn
    split
    · rename_i hf
      rw [Version.translateWildcardNotEqual, wildcard_translate_star ((wildcard_spec ho).1 hf.2.1 hf.2.2.1 hf.2.2.2 hf.1)] at hn
      simp only [bind, Except.bind, not_universal] at hn
      cases hn
      rfl
    · rename_i hf
      obtain ⟨w, hw⟩ := wildcard_some ho hf
      rw [Version.translateWildcardNotEqual, wildcard_translate hw] at hn
      split at hn
      · simp [bind, Except.bind] at hn
      · rename_i hlt
        have hne : a.key ≠ w.key := by
          rcases wildcard_upper ho with hu | ⟨w', hw', hu⟩
          · rw [hw] at hu; cases hu
          · rw [hw] at hw'; cases hw'; exact hu.ne ho
        obtain ⟨items, c1, c2, c3⟩ := complement_window (v := a) (w := w) (by order)
        simp only [bind, Except.bind, c1] at hn
        cases hn
        refine foreign_cobounded c2 ((c3 _).2 ⟨bot_ne_top, ?_⟩) h v
        rw [window_cov]
        exact fun hc => not_lt_of_ge hc.1 (bot_lt_cutAt a false)
  cases t with
  | notEqual =>
    obtain ⟨items, c1, c2, c3⟩ := complement_point a
    simp only [Operator.toSet, OpType.translate, Version.translateNotEqual, Version.translateEqual, c1, bind, Except.bind] at hs
    cases hs
    refine ⟨fun hc => absurd rfl hc, fun _ => ⟨rfl, foreign_cobounded c2 ((c3 _).2 ⟨bot_ne_top, ?_⟩) h v⟩⟩
    rw [point_cov]
    exact (bot_lt_cutAt a false).ne
  | equal => cases hs; exact ⟨fun _ => foreign_contains (.point a) h v, by simp⟩
  | doubleEqual => cases hs; exact ⟨fun _ => foreign_contains (.point a) h v, by simp⟩
  | less => cases hs; exact ⟨fun _ => simple _ _ _ _ (by simp), by simp⟩
  | lessOrEqual => cases hs; exact ⟨fun _ => simple _ _ _ _ (by simp), by simp⟩
  | greater => cases hs; exact ⟨fun _ => simple _ _ _ _ (by simp), by simp⟩
  | greaterOrEqual => cases hs; exact ⟨fun _ => simple _ _ _ _ (by simp), by simp⟩
  | caret => exact ⟨fun _ => chain _ hs, by simp⟩
  | tilde => exact ⟨fun _ => chain _ hs, by simp⟩
  | tildeEqual => exact ⟨fun _ => chain _ hs, by simp⟩
  | wildcardEqual => exact ⟨fun _ => wild hs, by simp⟩
  | wildcardDoubleEqual => exact ⟨fun _ => wild hs, by simp⟩
  | wildcardNotEqual => exact ⟨fun _ => wildNot hs, by simp⟩

example : ∃ s, (⟨.notEqual, exVersion [1]⟩ : Operator).toSet 5 = .ok s ∧
    (s.ofClass 0).contains ⟨1, exVersion [2]⟩ = .error .typeError ∧
    ((Specifier.one ⟨.notEqual, exVersion [1]⟩).ofClass 0).accepts ⟨1, exVersion [2]⟩ = .ok true :=
  ⟨.union [.range ⟨none, some (exVersion [1]), false, false⟩, .range ⟨some (exVersion [1]), none, false, false⟩],
    by decide +kernel, by decide +kernel, by decide +kernel⟩

mutual
theorem foreign_accepts {c d d' : Nat} (h : c ≠ d) (h' : c ≠ d') (v v' : Version) :
    ∀ s : Specifier, (s.ofClass c).accepts ⟨d, v⟩ = (s.ofClass c).accepts ⟨d', v'⟩
  | .never => rfl
  | .always => rfl
  | .one o => by
    obtain ⟨t, a⟩ := o
    cases t <;>
      simp only [Specifier.ofClass, TSpecifier.accepts, OpType.matchesT, TVersion.chained, TVersion.matchesWildcardEqual,
        TVersion.ord_foreign (a := ⟨c, a⟩) (b := ⟨d, v⟩) _ h, TVersion.ord_foreign (a := ⟨c, a⟩) (b := ⟨d', v'⟩) _ h',
        TVersion.ord_foreign (a := ⟨d, v⟩) (b := ⟨c, a⟩) _ h.symm, TVersion.ord_foreign (a := ⟨d', v'⟩) (b := ⟨c, a⟩) _ h'.symm,
        TVersion.eq_foreign (a := ⟨d, v⟩) (b := ⟨c, a⟩) h.symm, TVersion.ne_foreign (a := ⟨d, v⟩) (b := ⟨c, a⟩) h.symm,
        TVersion.eq_foreign (a := ⟨d', v'⟩) (b := ⟨c, a⟩) h'.symm, TVersion.ne_foreign (a := ⟨d', v'⟩) (b := ⟨c, a⟩) h'.symm,
        bind, Except.bind]
  | .any l => foreign_anyAccepts h h' v v' l
  | .all l => foreign_allAccepts h h' v v' l
theorem foreign_anyAccepts {c d d' : Nat} (h : c ≠ d) (h' : c ≠ d') (v v' : Version) : ∀ l : List Specifier,
    TSpecifier.anyAccepts (Specifier.ofClassList c l) ⟨d, v⟩ = TSpecifier.anyAccepts (Specifier.ofClassList c l) ⟨d', v'⟩
  | [] => rfl
  | s :: rest => by
    simp only [Specifier.ofClassList, TSpecifier.anyAccepts, foreign_accepts h h' v v' s, foreign_anyAccepts h h' v v' rest]
theorem foreign_allAccepts {c d d' : Nat} (h : c ≠ d) (h' : c ≠ d') (v v' : Version) : ∀ l : List Specifier,
    TSpecifier.allAccepts (Specifier.ofClassList c l) ⟨d, v⟩ = TSpecifier.allAccepts (Specifier.ofClassList c l) ⟨d', v'⟩
  | [] => rfl
  | s :: rest => by
    simp only [Specifier.ofClassList, TSpecifier.allAccepts, foreign_accepts h h' v v' s, foreign_allAccepts h h' v v' rest]
end

/-- C99. A specifier cannot tell foreign versions apart: what it answers, or raises, for one of them it does for all. -/
theorem C99_blind (s : Specifier) (c d d' : Nat) (h : c ≠ d) (h' : c ≠ d') (v v' : Version) :
    (s.ofClass c).accepts ⟨d, v⟩ = (s.ofClass c).accepts ⟨d', v'⟩ := foreign_accepts h h' v v' s

example : ((Specifier.any [.one ⟨.equal, exVersion [1]⟩, .one ⟨.notEqual, exVersion [2]⟩]).ofClass 0).accepts ⟨1, exVersion [2]⟩ =
      .ok true ∧
    ((Specifier.all [.one ⟨.equal, exVersion [1]⟩, .one ⟨.less, exVersion [2]⟩]).ofClass 0).accepts ⟨1, exVersion [1]⟩ =
      .ok false ∧
    ((Specifier.all [.one ⟨.less, exVersion [2]⟩, .one ⟨.equal, exVersion [1]⟩]).ofClass 0).accepts ⟨1, exVersion [1]⟩ =
      .error .typeError := by decide +kernel

theorem endless_normal {i : Item} (hi : i.Normal) (he : i.Endless) : i = universalItem := by
  cases i with
  | point v => exact absurd he.1 (by simp [Item.min, Item.fields])
  | range r =>
    obtain ⟨x, y, p, q⟩ := r
    obtain ⟨rfl, rfl⟩ : x = none ∧ y = none := he
    obtain ⟨h1, h2, -⟩ := hi
    obtain rfl : p = false := h1 rfl
    obtain rfl : q = false := h2 rfl
    rfl

section
variable {c d : Nat} (h : c ≠ d)
include h

theorem foreign_ord (op : CmpOp) (a b : Version) : TVersion.ord op ⟨c, a⟩ ⟨d, b⟩ = .error .typeError := TVersion.ord_foreign _ h

theorem foreign_eq (a b : Version) : TVersion.eq ⟨c, a⟩ ⟨d, b⟩ = false := TVersion.eq_foreign h

theorem foreign_intersects (r s : VRange) : ((Item.range r).ofClass c).intersects ((Item.range s).ofClass d) =
    if (r.min ≠ none ∧ s.max ≠ none) ∨ (r.max ≠ none ∧ s.min ≠ none) then .error .typeError else .ok true := by
  obtain ⟨x, y, p, q⟩ := r
  obtain ⟨x', y', p', q'⟩ := s
  cases x <;> cases y <;> cases x' <;> cases y' <;>
    simp [Item.ofClass, TItem.intersects, TItem.isStrictlyLower, TItem.isStrictlyHigher, TItem.comparableMin, TItem.comparableMax,
      TItem.fields, foreign_ord h.symm, bind, Except.bind, TVersion.extLt, TVersion.extGt, Infinity.lt, Infinity.gt,
      NegativeInfinity.lt, NegativeInfinity.gt, Ext.isInfinity, Ext.isNegativeInfinity]

theorem foreign_includes (r s : VRange) (hr : (Item.range r).Normal) (hs : (Item.range s).Normal) :
    ((Item.range r).ofClass c).includes ((Item.range s).ofClass d) =
      if r.min ≠ none then (if s.min ≠ none then .error .typeError else .ok false)
      else if r.max ≠ none then (if s.max ≠ none then .error .typeError else .ok false)
      else .ok true := by
  obtain ⟨x, y, p, q⟩ := r
  obtain ⟨x', y', p', q'⟩ := s
  obtain ⟨h1, h2, -⟩ := hr
  obtain ⟨h3, h4, -⟩ := hs
  simp only at h1 h2 h3 h4
  cases x <;> cases y <;> cases x' <;> cases y' <;>
    simp_all [Item.ofClass, TItem.includes, TItem.isLower, TItem.isHigher, TItem.comparableMin, TItem.comparableMax,
      TItem.fields, foreign_ord h.symm, bind, Except.bind, TVersion.extLt, TVersion.extGt, Infinity.lt, Infinity.gt,
      NegativeInfinity.lt, NegativeInfinity.gt, Ext.isInfinity, Ext.isNegativeInfinity]

theorem foreign_intersection (r s : VRange) (hr : ¬ (Item.range r).Endless) (hs : ¬ (Item.range s).Endless) :
    ((Item.range r).ofClass c).intersection ((Item.range s).ofClass d) = .error .typeError := by
  obtain ⟨x, y, p, q⟩ := r
  obtain ⟨x', y', p', q'⟩ := s
  simp only [Item.Endless, Item.min, Item.max, Item.fields] at hr hs
  cases x <;> cases y <;> cases x' <;> cases y' <;>
    simp_all [Item.ofClass, TItem.intersection, TItem.isLower, TItem.isHigher, TItem.isStrictlyLower, TItem.isStrictlyHigher,
      TItem.comparableMin, TItem.comparableMax, TItem.fields, foreign_ord h, bind, Except.bind, TVersion.extLt, TVersion.extGt,
      NegativeInfinity.lt, NegativeInfinity.gt, Ext.isNegativeInfinity]

theorem foreign_union_ranges (r s : VRange) (hr : (Item.range r).Normal) (hs : (Item.range s).Normal)
    (er : ¬ (Item.range r).Endless) (es : ¬ (Item.range s).Endless) (lim : Nat) :
    ((Item.range r).ofClass c).union (lim + 1) ((Item.range s).ofClass d) = .error .typeError := by
  have hi := foreign_intersects h r s
  obtain ⟨x, y, p, q⟩ := r
  obtain ⟨x', y', p', q'⟩ := s
  obtain ⟨h1, h2, -⟩ := hr
  obtain ⟨h3, h4, -⟩ := hs
  simp only [Item.Endless, Item.min, Item.max, Item.fields] at er es h1 h2 h3 h4
  simp only [Item.ofClass] at hi ⊢
  simp only [TItem.union, hi]
  cases x <;> cases y <;> cases x' <;> cases y' <;>
    simp_all [TItem.isAdjacent, TVersion.optEq, TItem.isLower, TItem.isHigher, foreign_eq h,
      TItem.comparableMin, TItem.comparableMax, TItem.fields, foreign_ord h, bind, Except.bind, TVersion.extLt, TVersion.extGt,
      NegativeInfinity.lt, NegativeInfinity.gt, Ext.isNegativeInfinity]

theorem foreign_union (a b : Item) (ha : a.Normal) (hb : b.Normal) (ea : ¬ a.Endless) (eb : ¬ b.Endless) (lim : Nat) :
    (a.ofClass c).union (lim + 1) (b.ofClass d) = .error .typeError := by
  cases a with
  | range r =>
    cases b with
    | range s => exact foreign_union_ranges h r s ha hb ea eb lim
    | point w =>
      have := foreign_contains (.range r) h w
      simp only [if_neg (show ¬ (r.min = none ∧ r.max = none) from ea)] at this
      simp only [Item.ofClass] at this ⊢
      simp only [TItem.union, this, bind, Except.bind]
  | point v =>
    cases b with
    | range s =>
      have := foreign_contains (.range s) h.symm v
      simp only [if_neg (show ¬ (s.min = none ∧ s.max = none) from eb)] at this
      simp only [Item.ofClass] at this ⊢
      simp only [TItem.union, this, bind, Except.bind]
    | point w =>
      simp [Item.ofClass, TItem.union, TItem.contains, foreign_eq h, bind, Except.bind, TItem.unionOf, TItem.isUniversal,
        TItem.compare, TItem.comparableMin, TItem.fields, TVersion.extGt, foreign_ord h.symm]

end

theorem universal_ofClass (c d : Nat) : universalItem.ofClass c = universalItem.ofClass d := rfl

theorem universal_intersection {i : Item} (hi : i.Normal) : universalItem.intersectionItem i = .ok (.item i) ∧
    i.intersectionItem universalItem = .ok (.item i) := by
  cases i with
  | point v => exact ⟨rfl, rfl⟩
  | range r =>
    obtain ⟨x, y, p, q⟩ := r
    have hp := isPoint_range_false hi
    have hm := mkRange_ok hi.1 hi.2.1 (Item.Normal.lo_lt_hi hi)
    obtain ⟨h1, h2, -⟩ := hi
    simp only at hm h1 h2
    constructor <;> cases x <;> cases y <;>
      simp_all [universalItem, Item.intersectionItem, Item.isLower, Item.isHigher, Item.isStrictlyLower, Item.isStrictlyHigher,
        Item.comparableMin, Item.comparableMax, Item.min, Item.max, Item.includeMin, Item.includeMax, Item.excludeMin, Item.excludeMax,
        Item.fields, PyCmp.lt, PyCmp.gt, bind, Except.bind, Infinity.lt, Infinity.gt, NegativeInfinity.lt, NegativeInfinity.gt,
        Ext.isInfinity, Ext.isNegativeInfinity]

theorem universal_union {i : Item} (hi : i.Normal) (lim : Nat) :
    universalItem.unionItem (lim + 1) i = .ok (.item universalItem) ∧
    i.unionItem (lim + 1) universalItem = .ok (.item universalItem) := by
  cases i with
  | point v => exact ⟨rfl, rfl⟩
  | range r =>
    obtain ⟨x, y, p, q⟩ := r
    have hm : Item.mkRange none none false false = .ok universalItem := rfl
    obtain ⟨h1, h2, -⟩ := hi
    simp only at h1 h2
    constructor <;> cases x <;> cases y <;>
      simp_all [universalItem, Item.unionItem, Item.isLower, Item.isHigher, Item.isStrictlyLower, Item.isStrictlyHigher,
        Item.isAdjacent, Item.isLeftAdjacent, Item.isRightAdjacent, optEq, Item.intersectsItem,
        Item.comparableMin, Item.comparableMax, Item.min, Item.max, Item.includeMin, Item.includeMax, Item.excludeMin, Item.excludeMax,
        Item.fields, PyCmp.lt, PyCmp.gt, bind, Except.bind, Infinity.lt, Infinity.gt, NegativeInfinity.lt, NegativeInfinity.gt,
        Ext.isInfinity, Ext.isNegativeInfinity]

/-- C99. Operations on items of two classes. With the universal set they are as always, and the class of the other item is
kept. Otherwise a union raises `TypeError`, and so does an intersection, unless both items are points: then it is empty. -/
theorem C99_items (a b : Item) (ha : a.Normal) (hb : b.Normal) (c d : Nat) (h : c ≠ d) :
    (a.Endless → (∀ lim, (a.ofClass c).union (lim + 1) (b.ofClass d) = .ok (.item (.range {}))) ∧
      (a.ofClass c).intersection (b.ofClass d) = .ok (.item (b.ofClass d))) ∧
    (b.Endless → (∀ lim, (a.ofClass c).union (lim + 1) (b.ofClass d) = .ok (.item (.range {}))) ∧
      (a.ofClass c).intersection (b.ofClass d) = .ok (.item (a.ofClass c))) ∧
    (¬ a.Endless → ¬ b.Endless → (∀ lim, (a.ofClass c).union (lim + 1) (b.ofClass d) = .error .typeError) ∧
      ((∀ v w, a = .point v → b = .point w → (a.ofClass c).intersection (b.ofClass d) = .ok .empty) ∧
        ((∃ r, a = .range r ∨ b = .range r) → (a.ofClass c).intersection (b.ofClass d) = .error .typeError))) := by
  refine ⟨fun e => ?_, fun e => ?_, fun ea eb => ⟨fun lim => foreign_union h a b ha hb ea eb lim, ?_, ?_⟩⟩
  · rw [endless_normal ha e, universal_ofClass c d]
    refine ⟨fun lim => ?_, ?_⟩
    · rw [union_ofClass, (universal_union hb lim).1]; rfl
    · rw [intersection_ofClass, (universal_intersection hb).1]; rfl
  · rw [endless_normal hb e, universal_ofClass d c]
    refine ⟨fun lim => ?_, ?_⟩
    · rw [union_ofClass, (universal_union ha lim).2]; rfl
    · rw [intersection_ofClass, (universal_intersection ha).2]; rfl
  · rintro v w rfl rfl
    simp [Item.ofClass, TItem.intersection, TItem.contains, foreign_eq h.symm, bind, Except.bind]
  · intro hr
    cases a with
    | range r =>
      cases b with
      | range s => exact foreign_intersection h r s ea eb
      | point w =>
        have := foreign_contains (.range r) h w
        simp only [if_neg (show ¬ (r.min = none ∧ r.max = none) from ea)] at this
        simp only [Item.ofClass] at this ⊢
        simp only [TItem.intersection, this, bind, Except.bind]
    | point v =>
      cases b with
      | range s =>
        have := foreign_contains (.range s) h.symm v
        simp only [if_neg (show ¬ (s.min = none ∧ s.max = none) from eb)] at this
        simp only [Item.ofClass] at this ⊢
        simp only [TItem.intersection, this, bind, Except.bind]
      | point w => simp at hr

example : ((Item.point (exVersion [1])).ofClass 0).union 5 ((Item.point (exVersion [1])).ofClass 1) = .error .typeError ∧
    ((Item.point (exVersion [1])).ofClass 0).intersection ((Item.point (exVersion [1])).ofClass 1) = .ok .empty ∧
    ((Item.range ⟨none, some (exVersion [1]), false, false⟩).ofClass 0).intersection
      ((Item.range ⟨none, some (exVersion [2]), false, false⟩).ofClass 1) = .error .typeError ∧
    (universalItem.ofClass 0).intersection ((Item.point (exVersion [1])).ofClass 1) = .ok (.item (.point ⟨1, exVersion [1]⟩)) := by
  decide +kernel

/-- C99. `intersects` and `includes` on ranges of two classes answer when no two versions need to be compared: two ranges that
are unbounded on the same side intersect; a range does not include one that is unbounded on a side where it is not, and the
universal set includes all. Everything else raises `TypeError`. -/
theorem C99_ranges (r s : VRange) (hr : (Item.range r).Normal) (hs : (Item.range s).Normal) (c d : Nat) (h : c ≠ d) :
    ((Item.range r).ofClass c).intersects ((Item.range s).ofClass d) =
      (if (r.min ≠ none ∧ s.max ≠ none) ∨ (r.max ≠ none ∧ s.min ≠ none) then .error .typeError else .ok true) ∧
    ((Item.range r).ofClass c).includes ((Item.range s).ofClass d) =
      (if r.min ≠ none then (if s.min ≠ none then .error .typeError else .ok false)
      else if r.max ≠ none then (if s.max ≠ none then .error .typeError else .ok false)
      else .ok true) := ⟨foreign_intersects h r s, foreign_includes h r s hr hs⟩

example : ((Item.range ⟨none, some (exVersion [1]), false, false⟩).ofClass 0).intersects
      ((Item.range ⟨none, some (exVersion [2]), false, false⟩).ofClass 1) = .ok true ∧
    ((Item.range ⟨some (exVersion [1]), none, false, false⟩).ofClass 0).intersects
      ((Item.range ⟨none, some (exVersion [2]), false, false⟩).ofClass 1) = .error .typeError ∧
    ((Item.range ⟨some (exVersion [1]), none, false, false⟩).ofClass 0).includes
      ((Item.range ⟨none, some (exVersion [2]), false, false⟩).ofClass 1) = .ok false := by decide +kernel

/-! ## Equality of specifiers and sets -/

theorem foreign_itemEq {c d : Nat} (h : c ≠ d) (a b : Item) :
    (a.ofClass c).eq (b.ofClass d) = true ↔ a.eq b = true ∧ a.Endless := by
  simp only [TItem.eq, ofClass_fields, Item.eq, Item.Endless]
  cases a.min <;> cases a.max <;> cases b.min <;> cases b.max <;> simp [TVersion.optEq, optEq, foreign_eq h]

mutual
theorem foreign_specEq {c d : Nat} (h : c ≠ d) : ∀ s t : Specifier,
    (s.ofClass c).eq (t.ofClass d) = true ↔ s.eq t = true ∧ ∀ o, ¬ s.Uses o
  | .never, t => by
    cases t <;> simp [Specifier.ofClass, TSpecifier.eq, Specifier.eq]
    intro o ho; cases ho
  | .always, t => by
    cases t <;> simp [Specifier.ofClass, TSpecifier.eq, Specifier.eq]
    intro o ho; cases ho
  | .one o, t => by
    have : ¬ ∀ o', ¬ (Specifier.one o).Uses o' := fun hn => hn o (.one o)
    cases t <;> simp [Specifier.ofClass, TSpecifier.eq, Specifier.eq, foreign_eq h, this]
  | .any l, t => by
    have hu : (∀ o, ¬ (Specifier.any l).Uses o) ↔ ∀ s ∈ l, ∀ o, ¬ s.Uses o :=
      ⟨fun hn s hs o ho => hn o (.any hs ho), fun hn o ho => by cases ho with | any hs ho => exact hn _ hs _ ho⟩
    cases t with
    | any l' => simp only [Specifier.ofClass, TSpecifier.eq, Specifier.eq, hu]; exact foreign_specListEq h l l'
    | _ => simp [Specifier.ofClass, TSpecifier.eq, Specifier.eq]
  | .all l, t => by
    have hu : (∀ o, ¬ (Specifier.all l).Uses o) ↔ ∀ s ∈ l, ∀ o, ¬ s.Uses o :=
      ⟨fun hn s hs o ho => hn o (.all hs ho), fun hn o ho => by cases ho with | all hs ho => exact hn _ hs _ ho⟩
    cases t with
    | all l' => simp only [Specifier.ofClass, TSpecifier.eq, Specifier.eq, hu]; exact foreign_specListEq h l l'
    | _ => simp [Specifier.ofClass, TSpecifier.eq, Specifier.eq]
theorem foreign_specListEq {c d : Nat} (h : c ≠ d) : ∀ l l' : List Specifier,
    TSpecifier.eqList (Specifier.ofClassList c l) (Specifier.ofClassList d l') = true ↔
      Specifier.eqList l l' = true ∧ ∀ s ∈ l, ∀ o, ¬ s.Uses o
  | [], [] => by simp [Specifier.ofClassList, TSpecifier.eqList, Specifier.eqList]
  | [], _ :: _ => by simp [Specifier.ofClassList, TSpecifier.eqList, Specifier.eqList]
  | _ :: _, [] => by simp [Specifier.ofClassList, TSpecifier.eqList, Specifier.eqList]
  | s :: l, t :: l' => by
    simp only [Specifier.ofClassList, TSpecifier.eqList, Specifier.eqList, Bool.and_eq_true, foreign_specEq h s t,
      foreign_specListEq h l l', List.forall_mem_cons]
    tauto
end

/-- C99. Specifiers and sets with versions of two classes are equal only if they hold no version at all. So a cache of
results (converters.py) never returns the result for one class where the other was asked. -/
theorem C99_equal (c d : Nat) (h : c ≠ d) :
    (∀ s t : Specifier, (s.ofClass c).eq (t.ofClass d) = true ↔ s.eq t = true ∧ ∀ o, ¬ s.Uses o) ∧
    ∀ s t : VSet, s.Normal → t.Normal → ((s.ofClass c).eq (t.ofClass d) = true ↔
      s = .empty ∧ t = .empty ∨ s = .universal ∧ t = .universal) := by
  refine ⟨foreign_specEq h, fun s t hs ht => ?_⟩
  cases s with
  | empty => cases t <;> simp [VSet.ofClass, TSet.eq, VSet.universal]
  | item i =>
    cases t with
    | item j =>
      simp only [VSet.ofClass, TSet.eq, foreign_itemEq h, VSet.universal, VSet.item.injEq, reduceCtorEq, false_and, false_or]
      constructor
      · rintro ⟨h1, h2⟩
        have h3 := h2
        have hi := endless_normal hs h2
        subst hi
        refine ⟨rfl, endless_normal ht ?_⟩
        simp only [Item.eq, Bool.and_eq_true] at h1
        constructor
        · cases hm : j.min with
          | none => rfl
          | some x => rw [hm] at h1; exact absurd h1.1.1.1 (by simp [universalItem, Item.min, Item.fields, optEq])
        · cases hm : j.max with
          | none => rfl
          | some x => rw [hm] at h1; exact absurd h1.1.1.2 (by simp [universalItem, Item.max, Item.fields, optEq])
      · rintro ⟨rfl, rfl⟩
        exact ⟨rfl, rfl, rfl⟩
    | _ => simp [VSet.ofClass, TSet.eq, VSet.universal]
  | union l =>
    cases t with
    | union l' =>
      simp only [VSet.ofClass, TSet.eq, VSet.universal, reduceCtorEq, false_and, or_false, iff_false, Bool.not_eq_true]
      cases l with
      | nil => exact absurd hs.1 (by simp)
      | cons i l =>
        cases l' with
        | nil => simp
        | cons j l' =>
          have : (i.ofClass c).eq (j.ofClass d) = false := by
            rw [← Bool.not_eq_true, foreign_itemEq h]
            exact fun hc => normal_ends hs (List.mem_cons_self ..) hc.2
          simp [this]
    | _ => simp [VSet.ofClass, TSet.eq, VSet.universal]

example : ((Specifier.one ⟨.equal, exVersion [1]⟩).ofClass 0).eq ((Specifier.one ⟨.equal, exVersion [1]⟩).ofClass 1) = false ∧
    ((Specifier.any [.always, .never]).ofClass 0).eq ((Specifier.any [.always, .never]).ofClass 1) = true ∧
    ((exPoint [1]).ofClass 0).eq ((exPoint [1]).ofClass 1) = false ∧
    (VSet.universal.ofClass 0).eq (VSet.universal.ofClass 1) = true := by decide +kernel

end Verif
