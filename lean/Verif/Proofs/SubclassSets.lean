import Verif.Model.SubclassSets
import Verif.Props.Subclasses
/-!
# Lemmas about sets of versions of more than one class
-/

namespace Verif

/-! ## One class -/

theorem sort_ofClass (S : ItemSort) (c : Nat) (l : List Item) :
    S.sort (l.map (·.ofClass c)) = .ok ((VSet.sortItems l).map (·.ofClass c)) := by
  have key : ∀ a b : Item, (match (b.ofClass c).compare (a.ofClass c) with | .ok .lt => false | _ => true) = !b.lt a := by
    intro a b
    simp only [compare_ofClass, Item.lt]
    cases b.compare a <;> rfl
  rw [S.stable _ (fun x y => match y.compare x with | .ok .lt => false | _ => true), VSet.sortItems]
  · refine congrArg _ (List.map_insertionSort _ _ _ _ fun a _ b _ => ?_).symm
    rw [key]
  · intro a ha b hb
    obtain ⟨a, -, rfl⟩ := List.mem_map.1 ha
    obtain ⟨b, -, rfl⟩ := List.mem_map.1 hb
    refine ⟨_, compare_ofClass c b a, ?_⟩
    simp only [compare_ofClass]
    cases b.compare a <;> simp
  · intro a ha b hb
    obtain ⟨a, -, rfl⟩ := List.mem_map.1 ha
    obtain ⟨b, -, rfl⟩ := List.mem_map.1 hb
    simp only [key, Bool.not_eq_true', Bool.eq_false_iff, ne_eq, item_lt_key, not_lt]
    exact le_total _ _
  · intro a ha b hb x hx
    obtain ⟨a, -, rfl⟩ := List.mem_map.1 ha
    obtain ⟨b, -, rfl⟩ := List.mem_map.1 hb
    obtain ⟨x, -, rfl⟩ := List.mem_map.1 hx
    simp only [key, Bool.not_eq_true', Bool.eq_false_iff, ne_eq, item_lt_key, not_lt]
    exact fun h1 h2 => h1.trans h2

theorem mkUnion_ofClass (c : Nat) (l : List Item) :
    TSet.mkUnion (l.map (·.ofClass c)) = (VSet.mkUnion l).map (·.ofClass c) := by
  simp only [TSet.mkUnion, VSet.mkUnion, List.isEmpty_map, List.length_map]
  split_ifs <;> rfl

theorem mergeLoop_ofClass (c lim : Nat) : ∀ m l : List Item,
    TSet.mergeLoop (TItem.union lim) (m.map (·.ofClass c)) (l.map (·.ofClass c)) =
      (VSet.mergeLoop (Item.unionItem lim) m l).map (·.map (·.ofClass c))
  | m, [] => by simp [TSet.mergeLoop, VSet.mergeLoop, Except.map]
  | [], it :: rest => by
    simp only [List.map_cons, List.map_nil, TSet.mergeLoop, VSet.mergeLoop]
    exact mergeLoop_ofClass c lim [it] rest
  | last :: m, it :: rest => by
    simp only [List.map_cons, TSet.mergeLoop, VSet.mergeLoop, intersects_ofClass, isAdjacent_ofClass, union_ofClass, bind, Except.bind]
    have h1 := mergeLoop_ofClass c lim (it :: last :: m) rest
    have h2 := fun x => mergeLoop_ofClass c lim (x :: m) rest
    simp only [List.map_cons] at h1 h2
    rcases Bool.eq_false_or_eq_true (last.intersectsItem it) with h3 | h3 <;>
      rcases Bool.eq_false_or_eq_true (last.isAdjacent it) with h4 | h4 <;>
      simp only [h3, h4, if_true, Bool.false_eq_true, if_false, Bool.or_true, Bool.or_false, h1] <;>
      (cases last.unionItem lim it with
        | error e => rfl
        | ok s =>
          cases s with
          | item i => exact h2 i
          | _ => rfl)

theorem merge_ofClass (S : ItemSort) (c lim : Nat) (l : List Item) :
    TSet.merge S lim (l.map (·.ofClass c)) = (VSet.mergeItems (Item.unionItem lim) l).map (·.ofClass c) := by
  have h1 : (l.map (·.ofClass c)).any TItem.isUniversal = l.any Item.isUniversal := by
    simp only [List.any_map, Function.comp_def, isUniversal_ofClass]
  simp only [TSet.merge, VSet.mergeItems, List.isEmpty_map, h1, sort_ofClass, bind, Except.bind]
  split
  · rfl
  · split
    · rfl
    · have := mergeLoop_ofClass c lim [] (VSet.sortItems l)
      simp only [List.map_nil] at this
      rw [this]
      cases VSet.mergeLoop (Item.unionItem lim) [] (VSet.sortItems l) with
      | error e => rfl
      | ok m =>
        simp only [Except.map]
        match m with
        | [] => rfl
        | [i] => rfl
        | i :: j :: m =>
          have := mkUnion_ofClass c (i :: j :: m).reverse
          rw [List.map_reverse] at this
          exact this

theorem extract_ofClass (c : Nat) (s : VSet) : (s.ofClass c).extract = s.extract.map (·.ofClass c) := by cases s <;> rfl

theorem isEmptySet_ofClass (c : Nat) (s : VSet) : (s.ofClass c).isEmpty = s.isEmpty := by
  cases s with
  | item i => exact isEmpty_ofClass c i
  | _ => rfl

theorem anyContains_ofClass (c : Nat) (l : List Item) (v : Version) :
    TSet.anyContains (l.map (·.ofClass c)) ⟨c, v⟩ = .ok (l.any (·.contains v)) :=
  setContains_ofClass c (.union l) v

theorem includesLoop_ofClass (c : Nat) : ∀ l m : List Item,
    TSet.includesLoop (l.map (·.ofClass c)) (m.map (·.ofClass c)) = .ok (VSet.includesLoop l m)
  | l, [] => by simp [TSet.includesLoop, VSet.includesLoop]
  | [], _ :: _ => by simp [TSet.includesLoop, VSet.includesLoop]
  | i :: l, j :: m => by
    have h1 := includesLoop_ofClass c (i :: l) m
    have h2 := includesLoop_ofClass c l (j :: m)
    simp only [List.map_cons] at h1 h2 ⊢
    rw [TSet.includesLoop, VSet.includesLoop, includes_ofClass]
    simp only [bind, Except.bind, h1, h2]
    split <;> rfl
  termination_by l m => l.length + m.length

theorem intersectsLoop_ofClass (c : Nat) : ∀ l m : List Item,
    TSet.intersectsLoop (l.map (·.ofClass c)) (m.map (·.ofClass c)) = .ok (VSet.intersectsLoop l m)
  | [], _ => by simp [TSet.intersectsLoop, VSet.intersectsLoop]
  | _ :: _, [] => by simp [TSet.intersectsLoop, VSet.intersectsLoop]
  | i :: l, j :: m => by
    have h1 := intersectsLoop_ofClass c (i :: l) m
    have h2 := intersectsLoop_ofClass c l (j :: m)
    simp only [List.map_cons] at h1 h2 ⊢
    rw [TSet.intersectsLoop, VSet.intersectsLoop, intersects_ofClass, isHigher_ofClass]
    simp only [bind, Except.bind, h1, h2]
    split
    · rfl
    · split <;> rfl
  termination_by l m => l.length + m.length

theorem intersectionLoop_ofClass (c : Nat) : ∀ l m : List Item,
    TSet.intersectionLoop (l.map (·.ofClass c)) (m.map (·.ofClass c)) = (VSet.intersectionLoop l m).map (·.map (·.ofClass c))
  | [], _ => by simp [TSet.intersectionLoop, VSet.intersectionLoop, Except.map]
  | _ :: _, [] => by simp [TSet.intersectionLoop, VSet.intersectionLoop, Except.map]
  | i :: l, j :: m => by
    have h1 := intersectionLoop_ofClass c (i :: l) m
    have h2 := intersectionLoop_ofClass c l (j :: m)
    simp only [List.map_cons] at h1 h2 ⊢
    rw [TSet.intersectionLoop, VSet.intersectionLoop, intersection_ofClass, isHigher_ofClass]
    cases i.intersectionItem j with
    | error e => rfl
    | ok s =>
      simp only [bind, Except.bind, Except.map, h1, h2]
      cases j.isHigher i
      · simp only [Bool.false_eq_true, if_false]
        cases VSet.intersectionLoop (i :: l) m with
        | error e => rfl
        | ok t => cases s <;> rfl
      · simp only [if_true]
        cases VSet.intersectionLoop l (j :: m) with
        | error e => rfl
        | ok t => cases s <;> rfl
  termination_by l m => l.length + m.length

theorem setIncludes_ofClass (c : Nat) (s t : VSet) : (s.ofClass c).includes (t.ofClass c) = .ok (s.includes t) := by
  cases s with
  | empty => exact congrArg _ (isEmptySet_ofClass c t)
  | item i =>
    cases i with
    | range r =>
      cases t with
      | empty => rfl
      | item j => exact includes_ofClass c (.range r) j
      | union l =>
        show TSet.allIncludes ((Item.range r).ofClass c) (l.map (·.ofClass c)) = .ok (l.all fun j => (Item.range r).includesItem j)
        induction l with
        | nil => rfl
        | cons j l ih =>
          simp only [List.map_cons, TSet.allIncludes, includes_ofClass, bind, Except.bind, ih, List.all_cons]
          cases (Item.range r).includesItem j <;> rfl
    | point v =>
      cases t with
      | empty => rfl
      | item j => exact includes_ofClass c (.point v) j
      | union l => rfl
  | union l =>
    have := includesLoop_ofClass c l t.extract
    rw [← extract_ofClass] at this
    exact this

theorem setIntersects_ofClass (c : Nat) (s t : VSet) : (s.ofClass c).intersects (t.ofClass c) = .ok (s.intersects t) := by
  cases s with
  | empty => rfl
  | item i =>
    cases i with
    | range r =>
      cases t with
      | empty => rfl
      | item j => exact intersects_ofClass c (.range r) j
      | union l =>
        show TSet.anyIntersects ((Item.range r).ofClass c) (l.map (·.ofClass c)) = .ok (l.any fun j => (Item.range r).intersectsItem j)
        induction l with
        | nil => rfl
        | cons j l ih =>
          simp only [List.map_cons, TSet.anyIntersects, intersects_ofClass, bind, Except.bind, ih, List.any_cons]
          cases (Item.range r).intersectsItem j <;> rfl
    | point v => exact setContains_ofClass c t v
  | union l =>
    have := intersectsLoop_ofClass c l t.extract
    rw [← extract_ofClass] at this
    exact this

theorem unionOf_extract (lim : Nat) (l : List Item) :
    VSet.unionOf lim (l.map .item) = VSet.mergeItems (Item.unionItem lim) l := by
  simp [VSet.unionOf, List.flatMap_map, VSet.extract]

theorem merge_of (S : ItemSort) (c lim : Nat) {x : Except PyErr (List TItem)} {y : Except PyErr (List Item)}
    (h : x = y.map (·.map (·.ofClass c))) :
    (do TSet.merge S lim (← x)) = (do VSet.unionOf lim ((← y).map .item) : Except PyErr VSet).map (·.ofClass c) := by
  subst h
  cases y with
  | error e => rfl
  | ok l =>
    simp only [Except.map, bind, Except.bind, unionOf_extract]
    exact merge_ofClass S c lim l

theorem pointContains_ofClass (c : Nat) (t : VSet) (v : Version) (x y : VSet) :
    (do if ← (t.ofClass c).contains ⟨c, v⟩ then .ok (x.ofClass c) else .ok (y.ofClass c) : Except PyErr TSet) =
      (Except.ok (if t.contains v then x else y)).map (·.ofClass c) := by
  rw [setContains_ofClass]
  simp only [bind, Except.bind, Except.map]
  split <;> rfl

theorem setIntersection_ofClass (S : ItemSort) (c lim : Nat) (s t : VSet) :
    (s.ofClass c).intersection S lim (t.ofClass c) = (s.intersection lim t).map (·.ofClass c) := by
  cases s with
  | empty => rfl
  | item i =>
    cases i with
    | range r =>
      cases t with
      | empty => rfl
      | item j => exact intersection_ofClass c (.range r) j
      | union l => exact merge_of S c lim (intersectionLoop_ofClass c l [.range r])
    | point v => exact pointContains_ofClass c t v (.item (.point v)) .empty
  | union l =>
    have := intersectionLoop_ofClass c l t.extract
    rw [← extract_ofClass] at this
    exact merge_of S c lim this

theorem setUnion_ofClass (S : ItemSort) (c lim : Nat) (s t : VSet) :
    (s.ofClass c).unionWith S lim (t.ofClass c) = (s.unionWith lim t).map (·.ofClass c) := by
  have h : ∀ l m : List Item, TSet.merge S lim (l.map (·.ofClass c) ++ m.map (·.ofClass c)) =
      (VSet.mergeItems (Item.unionItem lim) (l ++ m)).map (·.ofClass c) := by
    intro l m
    rw [← List.map_append]
    exact merge_ofClass S c lim _
  cases s with
  | empty => rfl
  | item i =>
    cases t with
    | empty => cases i <;> rfl
    | item j => cases i <;> exact union_ofClass c lim _ j
    | union l =>
      cases i with
      | range r =>
        have := h l [.range r]
        simp only [VSet.unionWith, VSet.unionOf, List.flatMap_cons, List.flatMap_nil, VSet.extract, List.append_nil]
        exact this
      | point v =>
        have := h [.point v] l
        show (do if ← TSet.anyContains (l.map (·.ofClass c)) ⟨c, v⟩ then .ok (.union (l.map (·.ofClass c))) else
          TSet.merge S lim ((Item.point v).ofClass c :: l.map (·.ofClass c)) : Except PyErr TSet) = _
        simp only [VSet.unionWith, VSet.unionOf, anyContains_ofClass, bind, Except.bind, VSet.contains, List.flatMap_cons,
          List.flatMap_nil, VSet.extract, List.append_nil]
        cases l.any fun i => i.contains v
        · exact this
        · rfl
  | union l =>
    have := h l t.extract
    rw [← extract_ofClass] at this
    simp only [VSet.unionWith, VSet.unionOf, List.flatMap_cons, List.flatMap_nil, List.append_nil]
    exact this

/-! ### Differences -/

theorem differenceBefore_ofClass (c : Nat) (a b : Item) :
    (a.ofClass c).differenceBefore (b.ofClass c) = (a.differenceBefore b).map (·.map (·.ofClass c)) := by
  simp only [TItem.differenceBefore, Item.differenceBefore, isLower_ofClass, ofClass_fields, tOptEq_ofClass, bind, Except.bind,
    mkRange_ofClass, Item.excludeMin]
  cases a.isLower b
  · rfl
  · simp only [Bool.not_true, Bool.false_eq_true, if_false]
    split
    · cases a.min <;> rfl
    · cases Item.mkRange a.min b.min a.includeMin (!b.includeMin) <;> rfl

theorem differenceAfter_ofClass (c : Nat) (a b : Item) :
    (a.ofClass c).differenceAfter (b.ofClass c) = (a.differenceAfter b).map (·.map (·.ofClass c)) := by
  simp only [TItem.differenceAfter, Item.differenceAfter, isHigher_ofClass, ofClass_fields, tOptEq_ofClass, bind, Except.bind,
    mkRange_ofClass, Item.excludeMax]
  cases a.isHigher b
  · rfl
  · simp only [Bool.not_true, Bool.false_eq_true, if_false]
    split
    · cases a.max <;> rfl
    · cases Item.mkRange b.max a.max (!b.includeMax) a.includeMax <;> rfl

theorem difference_ofClass (c lim : Nat) (a b : Item) :
    (a.ofClass c).difference lim (b.ofClass c) = (a.differenceItem lim b).map (·.ofClass c) := by
  have hu := unionOf_ofClass c (union_ofClass c lim)
  cases a with
  | range r =>
    cases b with
    | range s =>
      have h1 := intersects_ofClass c (.range r) (.range s)
      have h2 := differenceBefore_ofClass c (.range r) (.range s)
      have h3 := differenceAfter_ofClass c (.range r) (.range s)
      simp only [Item.ofClass] at h1 h2 h3 ⊢
      simp only [TItem.difference, Item.differenceItem, h1, h2, h3, bind, Except.bind]
      cases (Item.range r).intersectsItem (.range s)
      · rfl
      · simp only [Bool.not_true, Bool.false_eq_true, if_false]
        cases (Item.range r).differenceBefore (.range s) with
        | error e => rfl
        | ok x =>
          cases (Item.range r).differenceAfter (.range s) with
          | error e => rfl
          | ok y => cases x <;> cases y <;> first | rfl | exact hu _ _
    | point v =>
      have h1 := contains_ofClass c (.range r) v
      have h3 := tOptEq_ofClass c (some v)
      have h4 := mkRange_ofClass c
      have h5 := fun y => mkRange_ofClass c (some v) y
      have h6 := fun x => mkRange_ofClass c x (some v)
      simp only [Option.map_some] at h3 h5 h6
      simp only [Item.ofClass] at h1 ⊢
      simp only [TItem.difference, Item.differenceItem, h1, h3, bind, Except.bind, h4, h5, h6, Item.min, Item.max, Item.excludeMin,
        Item.excludeMax, Item.includeMin, Item.includeMax, Item.fields]
      cases (Item.range r).contains v
      · rfl
      · simp only [Bool.not_true, Bool.false_eq_true, if_false]
        rcases Bool.eq_false_or_eq_true (optEq (some v) r.min) with e1 | e1
        · simp only [e1, if_true]
          rcases Bool.eq_false_or_eq_true r.includeMin with hi | hi
          · simp only [hi, Bool.not_true, Bool.false_eq_true, if_false]
            cases Item.mkRange r.min r.max false r.includeMax <;> rfl
          · simp [Except.map, VSet.ofClass, Item.ofClass, hi]
        · simp only [e1, Bool.false_eq_true, if_false]
          rcases Bool.eq_false_or_eq_true (optEq (some v) r.max) with e2 | e2
          · simp only [e2, if_true]
            rcases Bool.eq_false_or_eq_true r.includeMax with hi | hi
            · simp only [hi, Bool.not_true, Bool.false_eq_true, if_false]
              cases Item.mkRange r.min r.max r.includeMin false <;> rfl
            · simp [Except.map, VSet.ofClass, Item.ofClass, hi]
          · simp only [e2, Bool.false_eq_true, if_false]
            cases Item.mkRange r.min (some v) r.includeMin false with
            | error e => rfl
            | ok x =>
              cases Item.mkRange (some v) r.max false r.includeMax with
              | error e => rfl
              | ok y => exact hu x y
  | point v =>
    have := pointContains_ofClass c (.item b) v .empty (.item (.point v))
    cases b <;> exact this

theorem differenceIterator_ofClass (c lim : Nat) : ∀ (l : List Item) (a : Item),
    (a.ofClass c).differenceIterator lim (l.map (·.ofClass c)) = (a.differenceIterator lim l).map (·.map (·.ofClass c))
  | [], a => rfl
  | i :: l, a => by
    simp only [List.map_cons, TItem.differenceIterator, Item.differenceIterator, isStrictlyLower_ofClass, isStrictlyHigher_ofClass,
      difference_ofClass, bind, Except.bind]
    split
    · exact differenceIterator_ofClass c lim l a
    · split
      · rfl
      · cases a.differenceItem lim i with
        | error e => rfl
        | ok s =>
          cases s with
          | empty => exact differenceIterator_ofClass c lim l a
          | item j => exact differenceIterator_ofClass c lim l j
          | union m =>
            match m with
            | [] => rfl
            | [_] => rfl
            | [x, y] =>
              simp only [Except.map, VSet.ofClass, List.map_cons, List.map_nil, differenceIterator_ofClass c lim l y]
              cases y.differenceIterator lim l <;> rfl
            | _ :: _ :: _ :: _ => rfl

/-- The state of the loop in the class `c`. -/
def VSet.Diff.ofClass (c : Nat) (d : VSet.Diff) : TSet.Diff :=
  ⟨d.items.map (·.ofClass c), d.otherItems.map (·.ofClass c), d.current.map (·.ofClass c), d.otherCurrent.map (·.ofClass c),
    d.result.map (·.ofClass c)⟩

theorem nextOtherCurrent_ofClass (c : Nat) (d : VSet.Diff) :
    (d.ofClass c).nextOtherCurrent = ((d.nextOtherCurrent.1).ofClass c, d.nextOtherCurrent.2) := by
  obtain ⟨l, m, x, y, r⟩ := d
  cases m <;> cases x <;> simp [VSet.Diff.ofClass, VSet.Diff.nextOtherCurrent, TSet.Diff.nextOtherCurrent]

theorem nextCurrent_ofClass (c : Nat) (d : VSet.Diff) (b : Bool) :
    (d.ofClass c).nextCurrent b = (((d.nextCurrent b).1).ofClass c, (d.nextCurrent b).2) := by
  obtain ⟨l, m, x, y, r⟩ := d
  cases l <;> cases x <;> cases b <;> simp [VSet.Diff.ofClass, VSet.Diff.nextCurrent, TSet.Diff.nextCurrent]

theorem step_ofClass (c lim : Nat) (d : VSet.Diff) :
    (d.ofClass c).step lim = (d.step lim).map (fun p => (p.1.ofClass c, p.2)) := by
  have h1 := nextOtherCurrent_ofClass c
  have h2 := nextCurrent_ofClass c
  obtain ⟨l, m, x, y, r⟩ := d
  cases x with
  | none => rfl
  | some x =>
    cases y with
    | none => rfl
    | some y =>
      simp only [TSet.Diff.step, VSet.Diff.step, VSet.Diff.ofClass, Option.map_some, isStrictlyLower_ofClass, isStrictlyHigher_ofClass,
        difference_ofClass, bind, Except.bind]
      split
      · exact congrArg _ (h1 ⟨l, m, some x, some y, r⟩)
      · split
        · exact congrArg _ (h2 ⟨l, m, some x, some y, r⟩ true)
        · cases x.differenceItem lim y with
          | error e => rfl
          | ok s =>
            cases s with
            | empty => exact congrArg _ (h2 ⟨l, m, some x, some y, r⟩ false)
            | item j =>
              simp only [Except.map, VSet.ofClass, isHigher_ofClass]
              split
              · exact congrArg _ (h1 ⟨l, m, some j, some y, r⟩)
              · exact congrArg _ (h2 ⟨l, m, some j, some y, r⟩ true)
            | union k =>
              match k with
              | [] => rfl
              | [_] => rfl
              | [p, q] => exact congrArg _ (h1 ⟨l, m, some q, some y, p :: r⟩)
              | _ :: _ :: _ :: _ => rfl

theorem loop_ofClass (c lim : Nat) : ∀ (n : Nat) (d : VSet.Diff),
    TSet.Diff.loop lim n (d.ofClass c) = (VSet.Diff.loop lim n d).map (·.ofClass c)
  | 0, _ => rfl
  | n + 1, d => by
    simp only [TSet.Diff.loop, VSet.Diff.loop, step_ofClass, bind, Except.bind]
    cases d.step lim with
    | error e => rfl
    | ok p =>
      obtain ⟨d', b⟩ := p
      cases b
      · rfl
      · exact loop_ofClass c lim n d'

theorem compute_ofClass (c lim : Nat) (l m : List Item) :
    TSet.Diff.compute lim (l.map (·.ofClass c)) (m.map (·.ofClass c)) = (VSet.Diff.compute lim l m).map (·.map (·.ofClass c)) := by
  have h := loop_ofClass c lim (l.length + m.length + 1) ⟨l.tail, m.tail, l.head?, m.head?, []⟩
  simp only [VSet.Diff.ofClass, List.map_tail, ← List.head?_map, List.map_nil] at h
  simp only [TSet.Diff.compute, VSet.Diff.compute, List.length_map, h, bind, Except.bind]
  cases VSet.Diff.loop lim (l.length + m.length + 1) ⟨l.tail, m.tail, l.head?, m.head?, []⟩ with
  | error e => rfl
  | ok d => simp [Except.map]

theorem setDifference_ofClass (S : ItemSort) (c lim : Nat) (s t : VSet) :
    (s.ofClass c).difference S lim (t.ofClass c) = (s.difference lim t).map (·.ofClass c) := by
  cases s with
  | empty => rfl
  | item i =>
    cases i with
    | range r =>
      cases t with
      | empty => rfl
      | item j => exact difference_ofClass c lim (.range r) j
      | union l => exact merge_of S c lim (differenceIterator_ofClass c lim l (.range r))
    | point v => exact pointContains_ofClass c t v .empty (.item (.point v))
  | union l =>
    have := compute_ofClass c lim l t.extract
    rw [← extract_ofClass] at this
    exact merge_of S c lim this

theorem setComplement_ofClass (S : ItemSort) (c lim : Nat) (s : VSet) :
    (s.ofClass c).complement S lim = (s.complement lim).map (·.ofClass c) := by
  cases s with
  | empty => rfl
  | item i => exact setDifference_ofClass S c lim .universal (.item i)
  | union l => exact setDifference_ofClass S c lim .universal (.union l)

theorem setSymmetric_ofClass (S : ItemSort) (c lim : Nat) (s t : VSet) :
    (s.ofClass c).symmetricDifference S lim (t.ofClass c) = (s.symmetricDifference lim t).map (·.ofClass c) := by
  cases s with
  | empty => rfl
  | item i =>
    have h1 := setUnion_ofClass S c lim (.item i) t
    have h2 := setIntersection_ofClass S c lim (.item i) t
    simp only [VSet.ofClass] at h1 h2 ⊢
    simp only [TSet.symmetricDifference, VSet.symmetricDifference, h1, h2, bind, Except.bind]
    cases (VSet.item i).unionWith lim t with
    | error e => rfl
    | ok u =>
      cases (VSet.item i).intersection lim t with
      | error e => rfl
      | ok n => exact setDifference_ofClass S c lim u n
  | union l => rfl

theorem excludeVersion_ofClass (S : ItemSort) (c lim : Nat) (l : List Item) :
    TSet.excludeVersion S lim (l.map (·.ofClass c)) = (VSet.excludeVersion lim l).map (·.map (⟨c, ·⟩)) := by
  have h := setComplement_ofClass S c lim (.union l)
  simp only [VSet.ofClass] at h
  simp only [TSet.excludeVersion, VSet.excludeVersion, h, bind, Except.bind]
  cases (VSet.union l).complement lim with
  | error e => rfl
  | ok s =>
    cases s with
    | item i => cases i <;> rfl
    | _ => rfl

/-! ### Translations -/

theorem window_ofClass (c : Nat) (next : Version → Except PyErr Version) (v : Version) :
    TVersion.window next ⟨c, v⟩ =
      (do .ok (.item (← Item.mkRange (some v) (some (← next v)) true false)) : Except PyErr VSet).map (·.ofClass c) := by
  simp only [TVersion.window, bind, Except.bind]
  cases next v with
  | error e => rfl
  | ok w =>
    have := mkRange_ofClass c (some v) (some w) true false
    simp only [Option.map_some] at this
    simp only [this]
    cases Item.mkRange (some v) (some w) true false <;> rfl

theorem wildcard_ofClass (c : Nat) (v : Version) :
    TVersion.translateWildcardEqual ⟨c, v⟩ = v.translateWildcardEqual.map (·.ofClass c) := by
  simp only [TVersion.translateWildcardEqual, Version.translateWildcardEqual, bind, Except.bind]
  cases v.nextWildcardBreaking with
  | error e => rfl
  | ok o =>
    cases o with
    | none => rfl
    | some w =>
      have := mkRange_ofClass c (some v) (some w) true false
      simp only [Option.map_some] at this
      simp only [this]
      cases Item.mkRange (some v) (some w) true false <;> rfl

theorem translate_ofClass (S : ItemSort) (c lim : Nat) (t : OpType) (v : Version) :
    t.translateT S lim ⟨c, v⟩ = (t.translate lim v).map (·.ofClass c) := by
  have simple : ∀ (x y : Option Version) (p q : Bool),
      (do .ok (.item (← TItem.mkRange (x.map (⟨c, ·⟩)) (y.map (⟨c, ·⟩)) p q)) : Except PyErr TSet) =
        (do .ok (.item (← Item.mkRange x y p q)) : Except PyErr VSet).map (·.ofClass c) := by
    intro x y p q
    rw [mkRange_ofClass]
    cases Item.mkRange x y p q <;> rfl
  cases t with
  | tildeEqual => exact window_ofClass c _ v
  | caret => exact window_ofClass c _ v
  | tilde => exact window_ofClass c _ v
  | doubleEqual => rfl
  | equal => rfl
  | less => exact simple none (some v) false false
  | lessOrEqual => exact simple none (some v) false true
  | greater => exact simple (some v) none false false
  | greaterOrEqual => exact simple (some v) none true false
  | wildcardEqual => exact wildcard_ofClass c v
  | wildcardDoubleEqual => exact wildcard_ofClass c v
  | notEqual =>
    have h := setComplement_ofClass S c lim (.item (.point v))
    simp only [VSet.ofClass, Item.ofClass] at h
    simp only [OpType.translateT, OpType.translate, Version.translateNotEqual, Version.translateEqual, h, bind, Except.bind]
    cases (VSet.item (.point v)).complement lim with
    | error e => rfl
    | ok s => cases s <;> rfl
  | wildcardNotEqual =>
    simp only [OpType.translateT, OpType.translate, Version.translateWildcardNotEqual, wildcard_ofClass, bind, Except.bind]
    cases v.translateWildcardEqual with
    | error e => rfl
    | ok s =>
      simp only [Except.map, setComplement_ofClass]
      cases s.complement lim with
      | error e => rfl
      | ok s => cases s <;> rfl

mutual
theorem toSet_ofClass (S : ItemSort) (c lim : Nat) : ∀ s : Specifier,
    (s.ofClass c).toSet S lim = (s.toSet lim).map (·.ofClass c)
  | .never => rfl
  | .always => rfl
  | .one o => translate_ofClass S c lim o.type o.version
  | .all [] => rfl
  | .any [] => rfl
  | .all (s :: l) => by
    simp only [Specifier.ofClass, Specifier.ofClassList, TSpecifier.toSet, Specifier.toSet, toSet_ofClass S c lim s, bind, Except.bind]
    cases s.toSet lim with
    | error e => rfl
    | ok x => exact reduceAll_ofClass S c lim l x
  | .any (s :: l) => by
    simp only [Specifier.ofClass, Specifier.ofClassList, TSpecifier.toSet, Specifier.toSet, toSet_ofClass S c lim s, bind, Except.bind]
    cases s.toSet lim with
    | error e => rfl
    | ok x => exact reduceAny_ofClass S c lim l x
theorem reduceAll_ofClass (S : ItemSort) (c lim : Nat) : ∀ (l : List Specifier) (x : VSet),
    TSpecifier.reduceAll S lim (x.ofClass c) (Specifier.ofClassList c l) = (Specifier.reduceAll lim x l).map (·.ofClass c)
  | [], x => rfl
  | s :: l, x => by
    simp only [Specifier.ofClassList, TSpecifier.reduceAll, Specifier.reduceAll, toSet_ofClass S c lim s, bind, Except.bind]
    cases s.toSet lim with
    | error e => rfl
    | ok y =>
      simp only [Except.map, setIntersection_ofClass]
      cases x.intersection lim y with
      | error e => rfl
      | ok z => exact reduceAll_ofClass S c lim l z
theorem reduceAny_ofClass (S : ItemSort) (c lim : Nat) : ∀ (l : List Specifier) (x : VSet),
    TSpecifier.reduceAny S lim (x.ofClass c) (Specifier.ofClassList c l) = (Specifier.reduceAny lim x l).map (·.ofClass c)
  | [], x => rfl
  | s :: l, x => by
    simp only [Specifier.ofClassList, TSpecifier.reduceAny, Specifier.reduceAny, toSet_ofClass S c lim s, bind, Except.bind]
    cases s.toSet lim with
    | error e => rfl
    | ok y =>
      simp only [Except.map, setUnion_ofClass]
      cases x.unionWith lim y with
      | error e => rfl
      | ok z => exact reduceAny_ofClass S c lim l z
end

theorem parse_ofClass (S : ItemSort) (lim c : Nat) (s : PyStr) :
    TSet.parse S lim c s = (VSet.parse lim s).map (·.ofClass c) := by
  simp only [TSet.parse, VSet.parse, bind, Except.bind]
  cases Specifier.parse s with
  | error e => rfl
  | ok x => exact toSet_ofClass S c lim x

/-! ## Two classes -/

theorem ext_error {x y : Ext TVersion} {e : PyErr} :
    (TVersion.extGt x y = .error e → e = .typeError) ∧ (TVersion.extLt x y = .error e → e = .typeError) := by
  have : ∀ (op : CmpOp) (a b : TVersion), a.ord op b = .error e → e = .typeError := by
    intro op a b h
    unfold TVersion.ord at h
    split at h
    · cases h
    · exact (Except.error.inj h).symm
  cases x <;> cases y <;> simp [TVersion.extGt, TVersion.extLt]
  exact ⟨this _ _ _, this _ _ _⟩

theorem compare_error {x y : TItem} {e : PyErr} (h : x.compare y = .error e) : e = .typeError := by
  simp only [TItem.compare, bind, Except.bind] at h
  cases h1 : TVersion.extGt x.comparableMin y.comparableMin with
  | error f => rw [h1] at h; cases h; exact ext_error.1 h1
  | ok b =>
    cases h2 : TVersion.extLt x.comparableMin y.comparableMin with
    | error f =>
      rw [h1, h2] at h
      cases b
      · cases h; exact ext_error.2 h2
      · cases h
    | ok b' =>
      cases h3 : TVersion.extGt x.comparableMax y.comparableMax with
      | error f =>
        rw [h1, h2, h3] at h
        cases b <;> cases b' <;> simp at h
        split at h
        · cases h
        · cases h; exact ext_error.1 h3
      | ok b'' =>
        cases h4 : TVersion.extLt x.comparableMax y.comparableMax with
        | error f =>
          rw [h1, h2, h3, h4] at h
          cases b <;> cases b' <;> simp at h
          split at h
          · cases h
          · cases b'' <;> simp at h
            cases h; exact ext_error.2 h4
        | ok b''' =>
          rw [h1, h2, h3, h4] at h
          cases b <;> cases b' <;> simp at h
          split at h
          · cases h
          · cases b'' <;> cases b''' <;> simp at h
            split at h <;> cases h

/-- The relation of neighbours in a sorted list. -/
def Sorted2 (a b : TItem) : Prop := (∃ o, b.compare a = .ok o ∧ o ≠ .lt) ∨ a.compare b = .ok .lt

theorem normal_bottom {i : Item} (hi : i.Normal) (h : i.min = none) : i.includeMin = false := by
  cases i with
  | point v => simp [Item.min, Item.fields] at h
  | range r => exact hi.1 h

theorem foreign_sorted {c d : Nat} (h : c ≠ d) {a b : Item} (na : a.Normal) (nb : b.Normal) (ea : ¬ a.Endless) (eb : ¬ b.Endless)
    (hs : Sorted2 (a.ofClass c) (b.ofClass d)) : a.min = none ∧ b.min ≠ none := by
  have h1 := foreign_ord h
  have h2 := foreign_ord h.symm
  revert hs
  cases ha : a.min with
  | some v =>
    cases hb : b.min with
    | some w =>
      simp [Sorted2, TItem.compare, TItem.comparableMin, ofClass_fields, ha, hb, TVersion.extGt, bind, Except.bind, h1, h2]
    | none =>
      simp [Sorted2, TItem.compare, TItem.comparableMin, ofClass_fields, ha, hb, TVersion.extGt, TVersion.extLt, NegativeInfinity.lt,
        NegativeInfinity.gt, Ext.isNegativeInfinity, bind, Except.bind]
  | none =>
    cases hb : b.min with
    | some w => simp
    | none =>
      have ia := normal_bottom na ha
      have ib := normal_bottom nb hb
      cases ha' : a.max with
      | none => exact absurd ⟨ha, ha'⟩ ea
      | some v =>
        cases hb' : b.max with
        | none => exact absurd ⟨hb, hb'⟩ eb
        | some w =>
          simp [Sorted2, TItem.compare, TItem.comparableMin, TItem.comparableMax, ofClass_fields, ha, hb, ha', hb', ia, ib,
            TVersion.extGt, TVersion.extLt, NegativeInfinity.lt, NegativeInfinity.gt, Ext.isNegativeInfinity, bind, Except.bind, h1, h2]

theorem same_sorted {c : Nat} {a b : Item} (hs : Sorted2 (a.ofClass c) (b.ofClass c)) (hb : b.min = none) : a.min = none := by
  have h1 := TVersion.ord_ofClass (c := c)
  revert hs
  cases ha : a.min with
  | none => simp
  | some v =>
    simp only [Sorted2, TItem.compare, TItem.comparableMin, TItem.comparableMax, ofClass_fields, ha, hb]
    simp [TVersion.extGt, TVersion.extLt, NegativeInfinity.lt, NegativeInfinity.gt, Ext.isNegativeInfinity, bind, Except.bind]

/-- The item is one of the items of `l`, in the class `c`, or one of the items of `m`, in the class `d`. -/
def Mixed (c d : Nat) (x : TItem) : Prop := ∃ i : Item, (i.Normal ∧ ¬ i.Endless) ∧ (x = i.ofClass c ∨ x = i.ofClass d)

/-- The class of the versions of an item with an end. -/
def TItem.cls (x : TItem) : Option Nat := (x.fields.min.or x.fields.max).map (·.cls)

theorem cls_ofClass {i : Item} (hi : ¬ i.Endless) (c : Nat) : (i.ofClass c).cls = some c := by
  simp only [TItem.cls, ofClass_fields]
  simp only [Item.Endless] at hi
  cases h1 : i.min <;> cases h2 : i.max <;> simp_all

theorem mixed_first {c d : Nat} (h : c ≠ d) : ∀ l : List TItem, (∀ x ∈ l, Mixed c d x) →
    l.Pairwise (fun x y => ¬ (x.cls = y.cls ∧ x.fields.min = none ∧ y.fields.min = none)) → l.IsChain Sorted2 →
    (∃ x ∈ l, ∃ y ∈ l, x.cls ≠ y.cls) →
    ∃ x y m, l = x :: y :: m ∧ x.cls ≠ y.cls ∧ x.fields.min = none ∧ y.fields.min ≠ none
  | [], _, _, _, hc => by simp at hc
  | [x], _, _, _, hc => by simp at hc
  | x :: y :: m, hm, hp, hs, hc => by
    obtain ⟨i, ⟨ni, ei⟩, hx⟩ := hm x (by simp)
    obtain ⟨j, ⟨nj, ej⟩, hy⟩ := hm y (by simp)
    rw [List.isChain_cons_cons] at hs
    have cross : ∀ {c d : Nat}, c ≠ d → x = i.ofClass c → y = j.ofClass d →
        x.cls ≠ y.cls ∧ x.fields.min = none ∧ y.fields.min ≠ none := by
      intro c d h hx hy
      have := hs.1
      rw [hx, hy] at this
      obtain ⟨h1, h2⟩ := foreign_sorted h ni nj ei ej this
      rw [hx, hy, cls_ofClass ei, cls_ofClass ej, ofClass_fields, ofClass_fields]
      simp only [h1, Option.map_none, ne_eq, Option.map_eq_none_iff, h2, not_false_eq_true, and_true, Option.some.injEq, h]
    have same : ∀ {c : Nat}, x = i.ofClass c → y = j.ofClass c → y.fields.min = none → x.fields.min = none ∧ x.cls = y.cls := by
      intro c hx hy hn
      have := hs.1
      rw [hx, hy] at this
      rw [hy, ofClass_fields] at hn
      rw [hx, hy, cls_ofClass ei, cls_ofClass ej, ofClass_fields]
      simp only [Option.map_eq_none_iff] at hn ⊢
      exact ⟨same_sorted this hn, trivial⟩
    by_cases hxy : x.cls = y.cls
    · exfalso
      have hc' : ∃ z ∈ y :: m, ∃ w ∈ y :: m, z.cls ≠ w.cls := by
        obtain ⟨z, hz, w, hw, hzw⟩ := hc
        rcases List.mem_cons.1 hz with hz' | hz'
        · rcases List.mem_cons.1 hw with hw' | hw'
          · exact absurd (by rw [hz', hw']) hzw
          · exact ⟨y, by simp, w, hw', by rw [← hxy, ← hz']; exact hzw⟩
        · rcases List.mem_cons.1 hw with hw' | hw'
          · exact ⟨z, hz', y, by simp, by rw [← hxy, ← hw']; exact hzw⟩
          · exact ⟨z, hz', w, hw', hzw⟩
      obtain ⟨x', y', m', he, -, hn, -⟩ := mixed_first h (y :: m) (fun z hz => hm z (List.mem_cons_of_mem _ hz))
        (List.pairwise_cons.1 hp).2 hs.2 hc'
      cases he
      have hn' : x.fields.min = none := by
        rcases hx with hx | hx <;> rcases hy with hy | hy
        · exact (same hx hy hn).1
        · exact absurd hxy (cross h hx hy).1
        · exact absurd hxy (cross h.symm hx hy).1
        · exact (same hx hy hn).1
      exact (List.pairwise_cons.1 hp).1 y (by simp) ⟨hxy, hn', hn⟩
    · refine ⟨x, y, m, rfl, ?_⟩
      rcases hx with hx | hx <;> rcases hy with hy | hy
      · exact absurd (by rw [hx, hy, cls_ofClass ei, cls_ofClass ej]) hxy
      · exact cross h hx hy
      · exact cross h.symm hx hy
      · exact absurd (by rw [hx, hy, cls_ofClass ei, cls_ofClass ej]) hxy

theorem foreign_meet {c d : Nat} (h : c ≠ d) {a b : Item} (ea : ¬ a.Endless) (ha : a.min = none) (hb : b.min ≠ none) :
    (a.ofClass c).intersects (b.ofClass d) = .error .typeError := by
  cases a with
  | point v => simp [Item.min, Item.fields] at ha
  | range r =>
    have hr : r.max ≠ none := fun he => ea ⟨ha, he⟩
    cases b with
    | range s => rw [foreign_intersects h]; exact if_pos (.inr ⟨hr, hb⟩)
    | point w =>
      have := foreign_contains (.range r) h w
      simp only [if_neg (show ¬ (r.min = none ∧ r.max = none) from ea)] at this
      simpa [Item.ofClass, TItem.intersects] using this

theorem merge_foreign (S : ItemSort) (lim : Nat) {c d : Nat} (h : c ≠ d) (l : List TItem) (hm : ∀ x ∈ l, Mixed c d x)
    (hp : l.Pairwise (fun x y => ¬ (x.cls = y.cls ∧ x.fields.min = none ∧ y.fields.min = none)))
    (hc : ∃ x ∈ l, ∃ y ∈ l, x.cls ≠ y.cls) : TSet.merge S lim l = .error .typeError := by
  have h1 : l.isEmpty = false := by
    cases l with
    | nil => simp at hc
    | cons => rfl
  have h2 : l.any TItem.isUniversal = false := by
    rw [List.any_eq_false]
    intro x hx
    obtain ⟨i, ⟨-, ei⟩, hx⟩ := hm x hx
    simp only [Item.Endless] at ei
    rcases hx with rfl | rfl <;> rw [isUniversal_ofClass] <;>
      cases i <;> simp_all [Item.isUniversal, Item.isUnbounded]
  simp only [TSet.merge, h1, h2, Bool.false_eq_true, if_false, bind, Except.bind]
  cases hs : S.sort l with
  | error e =>
    obtain ⟨a, -, b, -, he⟩ := S.raises l e hs
    rw [compare_error he]
  | ok l' =>
    obtain ⟨hperm, hchain⟩ := S.returns l l' hs
    obtain ⟨x, y, m, rfl, hxy, hx, hy⟩ := mixed_first h l' (fun z hz => hm z (hperm.mem_iff.1 hz))
      ((hperm.pairwise_iff (fun hab hba => hab ⟨hba.1.symm, hba.2.2, hba.2.1⟩)).2 hp) hchain
      (by simpa only [hperm.mem_iff] using hc)
    have key : x.intersects y = .error .typeError := by
      obtain ⟨i, ⟨-, ei⟩, hxi⟩ := hm x (hperm.mem_iff.1 (by simp))
      obtain ⟨j, ⟨-, ej⟩, hyj⟩ := hm y (hperm.mem_iff.1 (by simp))
      have go : ∀ {c d : Nat}, c ≠ d → x = i.ofClass c → y = j.ofClass d → x.intersects y = .error .typeError := by
        rintro c d h rfl rfl
        rw [ofClass_fields] at hx hy
        simp only [Option.map_eq_none_iff, ne_eq] at hx hy
        exact foreign_meet h ei hx hy
      rcases hxi with hxi | hxi <;> rcases hyj with hyj | hyj
      · exact absurd (by rw [hxi, hyj, cls_ofClass ei, cls_ofClass ej]) hxy
      · exact go h hxi hyj
      · exact go h.symm hxi hyj
      · exact absurd (by rw [hxi, hyj, cls_ofClass ei, cls_ofClass ej]) hxy
    simp only [TSet.mergeLoop, key, bind, Except.bind]

/-- A list of items as a set in normal form has them: no end is missing on both sides, and at most one lower end. -/
def Loose (l : List Item) : Prop := l ≠ [] ∧ (∀ i ∈ l, i.Normal ∧ ¬ i.Endless) ∧ l.Pairwise (fun i j => ¬ (i.min = none ∧ j.min = none))

theorem loose_extract {s : VSet} (hs : s.Normal) (he : s ≠ .empty) (hu : s ≠ .universal) : Loose s.extract := by
  cases s with
  | empty => exact absurd rfl he
  | item i =>
    refine ⟨by simp [VSet.extract], ?_, by simp [VSet.extract]⟩
    intro j hj
    refine ⟨by simp only [VSet.extract, List.mem_singleton] at hj; exact hj ▸ hs, fun hj' => ?_⟩
    obtain rfl : j = i := by simpa [VSet.extract] using hj
    exact hu (by rw [endless_normal hs hj']; rfl)
  | union l =>
    refine ⟨?_, fun i hi => ⟨hs.2.1 i hi, normal_ends hs hi⟩, ?_⟩
    · rintro rfl
      exact absurd hs.1 (by simp)
    · refine hs.2.2.imp ?_
      rintro i j ⟨x, y, -, hy, -⟩ ⟨-, h2⟩
      rw [h2] at hy; cases hy

theorem merge_two (S : ItemSort) (lim : Nat) {c d : Nat} (h : c ≠ d) {l m : List Item} (hl : Loose l) (hm : Loose m) :
    TSet.merge S lim (l.map (·.ofClass c) ++ m.map (·.ofClass d)) = .error .typeError := by
  apply merge_foreign S lim h
  · intro x hx
    rcases List.mem_append.1 hx with hx | hx <;> obtain ⟨i, hi, rfl⟩ := List.mem_map.1 hx
    · exact ⟨i, hl.2.1 i hi, .inl rfl⟩
    · exact ⟨i, hm.2.1 i hi, .inr rfl⟩
  · have one : ∀ {l : List Item} (c : Nat), Loose l → (l.map (·.ofClass c)).Pairwise
        (fun x y => ¬ (x.cls = y.cls ∧ x.fields.min = none ∧ y.fields.min = none)) := by
      intro l c hl
      rw [List.pairwise_map]
      refine hl.2.2.imp ?_
      intro i j hij hx
      rw [ofClass_fields, ofClass_fields] at hx
      simp only [Option.map_eq_none_iff] at hx
      exact hij hx.2
    rw [List.pairwise_append]
    refine ⟨one c hl, one d hm, ?_⟩
    intro x hx y hy hxy
    obtain ⟨i, hi, rfl⟩ := List.mem_map.1 hx
    obtain ⟨j, hj, rfl⟩ := List.mem_map.1 hy
    have := hxy.1
    rw [cls_ofClass (hl.2.1 i hi).2, cls_ofClass (hm.2.1 j hj).2] at this
    exact h (Option.some.inj this)
  · obtain ⟨i, l, rfl⟩ := List.exists_cons_of_ne_nil hl.1
    obtain ⟨j, m, rfl⟩ := List.exists_cons_of_ne_nil hm.1
    refine ⟨i.ofClass c, by simp, j.ofClass d, by simp, ?_⟩
    rw [cls_ofClass (hl.2.1 i (by simp)).2, cls_ofClass (hm.2.1 j (by simp)).2]
    simpa using h

theorem foreign_setUnion (S : ItemSort) (lim : Nat) {c d : Nat} (h : c ≠ d) {s t : VSet} (hs : s.Normal) (ht : t.Normal)
    (es : s ≠ .empty) (et : t ≠ .empty) (us : s ≠ .universal) (ut : t ≠ .universal) :
    (s.ofClass c).unionWith S (lim + 1) (t.ofClass d) = .error .typeError := by
  have ls := loose_extract hs es us
  have lt := loose_extract ht et ut
  cases s with
  | empty => exact absurd rfl es
  | item i =>
    cases t with
    | empty => exact absurd rfl et
    | item j =>
      have := foreign_union h i j hs ht (ls.2.1 i (by simp [VSet.extract])).2 (lt.2.1 j (by simp [VSet.extract])).2 lim
      cases i <;> exact this
    | union l =>
      cases i with
      | range r => exact merge_two S (lim + 1) h.symm lt ls
      | point v =>
        have hm := merge_two S (lim + 1) h ls lt
        obtain ⟨h1, h2⟩ := foreign_any h.symm v (fun i hi => (lt.2.1 i hi).2)
        show (do if ← TSet.anyContains (l.map (·.ofClass d)) ⟨c, v⟩ then .ok (.union (l.map (·.ofClass d))) else
          TSet.merge S (lim + 1) ((Item.point v).ofClass c :: l.map (·.ofClass d)) : Except PyErr TSet) = _
        by_cases hr : ∃ r, Item.range r ∈ l
        · rw [show TSet.anyContains (l.map (·.ofClass d)) ⟨c, v⟩ = _ from h1 hr]; rfl
        · rw [show TSet.anyContains (l.map (·.ofClass d)) ⟨c, v⟩ = _ from h2 (fun r hr' => hr ⟨r, hr'⟩)]
          exact hm
  | union l =>
    have := merge_two S (lim + 1) h ls lt
    rw [← extract_ofClass d t] at this
    exact this

section
variable {c d : Nat} (h : c ≠ d)
include h

theorem foreign_higher_points (v w : Version) :
    ((Item.point v).ofClass c).isHigher ((Item.point w).ofClass d) = .error .typeError := by
  simp [TItem.isHigher, Item.ofClass, TItem.comparableMax, TItem.fields, TVersion.extLt, foreign_ord h, bind, Except.bind]

theorem foreign_intersectionLoop {l m : List Item} (hl : Loose l) (hm : Loose m) :
    TSet.intersectionLoop (l.map (·.ofClass c)) (m.map (·.ofClass d)) = .error .typeError := by
  obtain ⟨i, l, rfl⟩ := List.exists_cons_of_ne_nil hl.1
  obtain ⟨j, m, rfl⟩ := List.exists_cons_of_ne_nil hm.1
  obtain ⟨-, h1, h2⟩ := (C99_items i j (hl.2.1 i (by simp)).1 (hm.2.1 j (by simp)).1 c d h).2.2
    (hl.2.1 i (by simp)).2 (hm.2.1 j (by simp)).2
  simp only [List.map_cons]
  rw [TSet.intersectionLoop]
  cases i with
  | range r => rw [h2 ⟨r, .inl rfl⟩]; rfl
  | point v =>
    cases j with
    | range r => rw [h2 ⟨r, .inr rfl⟩]; rfl
    | point w => rw [h1 v w rfl rfl, foreign_higher_points h.symm]; rfl

/-- One round of the loops of `difference`. -/
theorem foreign_round (lim : Nat) (a b : Item) (ha : a.Normal) (hb : b.Normal) (ea : ¬ a.Endless) (eb : ¬ b.Endless) :
    (b.ofClass d).isStrictlyLower (a.ofClass c) = .error .typeError ∨
    (b.ofClass d).isStrictlyLower (a.ofClass c) = .ok false ∧
      ((b.ofClass d).isStrictlyHigher (a.ofClass c) = .error .typeError ∨
      (b.ofClass d).isStrictlyHigher (a.ofClass c) = .ok false ∧ (a.ofClass c).difference lim (b.ofClass d) = .error .typeError) := by
  have o1 := foreign_ord h
  have o2 := foreign_ord h.symm
  have q1 := foreign_eq h
  cases a with
  | point v =>
    cases b with
    | point w => simp [TItem.isStrictlyLower, Item.ofClass, TItem.comparableMax, TItem.comparableMin, TItem.fields, TVersion.extLt, o2,
        bind, Except.bind]
    | range s =>
      obtain ⟨x', y', p', q'⟩ := s
      simp only [Item.Endless, Item.min, Item.max, Item.fields] at eb
      cases x' <;> cases y' <;>
        simp_all [TItem.isStrictlyLower, TItem.isStrictlyHigher, Item.ofClass, TItem.comparableMax, TItem.comparableMin, TItem.fields,
          TVersion.extLt, TVersion.extGt, bind, Except.bind, Infinity.lt, Infinity.gt, NegativeInfinity.lt, NegativeInfinity.gt,
          Ext.isInfinity, Ext.isNegativeInfinity]
  | range r =>
    obtain ⟨x, y, p, q⟩ := r
    simp only [Item.Endless, Item.min, Item.max, Item.fields] at ea eb
    cases b with
    | point w =>
      cases x <;> cases y <;>
        simp_all [TItem.isStrictlyLower, TItem.isStrictlyHigher, Item.ofClass, TItem.comparableMax, TItem.comparableMin, TItem.fields,
          TVersion.extLt, TVersion.extGt, bind, Except.bind, Infinity.lt, Infinity.gt, NegativeInfinity.lt, NegativeInfinity.gt,
          Ext.isInfinity, Ext.isNegativeInfinity]
    | range s =>
      obtain ⟨x', y', p', q'⟩ := s
      obtain ⟨h1, h2, -⟩ := ha
      obtain ⟨h3, h4, -⟩ := hb
      simp only at h1 h2 h3 h4
      cases x <;> cases y <;> cases x' <;> cases y' <;>
        simp_all [TItem.isStrictlyLower, TItem.isStrictlyHigher, Item.ofClass, TItem.comparableMax, TItem.comparableMin, TItem.fields,
          TVersion.extLt, TVersion.extGt, bind, Except.bind, Infinity.lt, Infinity.gt, NegativeInfinity.lt, NegativeInfinity.gt,
          Ext.isInfinity, Ext.isNegativeInfinity, TItem.difference, TItem.intersects, TItem.differenceBefore, TItem.differenceAfter,
          TItem.isLower, TItem.isHigher]

theorem foreign_difference (lim : Nat) (r : VRange) (b : Item) (ha : (Item.range r).Normal) (hb : b.Normal)
    (ea : ¬ (Item.range r).Endless) (eb : ¬ b.Endless) :
    ((Item.range r).ofClass c).difference lim (b.ofClass d) = .error .typeError := by
  cases b with
  | point w =>
    have := foreign_contains (.range r) h w
    simp only [if_neg (show ¬ (r.min = none ∧ r.max = none) from ea)] at this
    simp only [Item.ofClass] at this ⊢
    simp only [TItem.difference, this, bind, Except.bind]
  | range s =>
    have hi := foreign_intersects h r s
    have o1 := foreign_ord h
    obtain ⟨x, y, p, q⟩ := r
    obtain ⟨x', y', p', q'⟩ := s
    simp only [Item.Endless, Item.min, Item.max, Item.fields] at ea eb
    obtain ⟨h1, h2, -⟩ := ha
    obtain ⟨h3, h4, -⟩ := hb
    simp only at h1 h2 h3 h4
    simp only [Item.ofClass] at hi ⊢
    simp only [TItem.difference, hi]
    cases x <;> cases y <;> cases x' <;> cases y' <;>
      simp_all [TItem.comparableMax, TItem.comparableMin, TItem.fields,
        TVersion.extLt, TVersion.extGt, bind, Except.bind, NegativeInfinity.lt, NegativeInfinity.gt, Ext.isNegativeInfinity,
        TItem.differenceBefore, TItem.differenceAfter, TItem.isLower, TItem.isHigher]

theorem foreign_iterator (lim : Nat) {a : Item} {m : List Item} (ha : a.Normal) (ea : ¬ a.Endless) (hm : Loose m) : (a.ofClass c).differenceIterator lim (m.map (·.ofClass d)) = .error .typeError := by
  obtain ⟨j, m, rfl⟩ := List.exists_cons_of_ne_nil hm.1
  simp only [List.map_cons, TItem.differenceIterator]
  rcases foreign_round h lim a j ha (hm.2.1 j (by simp)).1 ea (hm.2.1 j (by simp)).2 with h1 | ⟨h1, h2 | ⟨h2, h3⟩⟩
  · simp only [h1, bind, Except.bind]
  · simp [h1, h2, bind, Except.bind]
  · simp [h1, h2, h3, bind, Except.bind]

theorem foreign_compute (lim : Nat) {l m : List Item} (hl : Loose l) (hm : Loose m) :
    TSet.Diff.compute lim (l.map (·.ofClass c)) (m.map (·.ofClass d)) = .error .typeError := by
  obtain ⟨i, l, rfl⟩ := List.exists_cons_of_ne_nil hl.1
  obtain ⟨j, m, rfl⟩ := List.exists_cons_of_ne_nil hm.1
  simp only [List.map_cons, TSet.Diff.compute, TSet.Diff.loop, TSet.Diff.step, List.head?_cons, List.tail_cons]
  rcases foreign_round h lim i j (hl.2.1 i (by simp)).1 (hm.2.1 j (by simp)).1 (hl.2.1 i (by simp)).2
    (hm.2.1 j (by simp)).2 with
    h1 | ⟨h1, h2 | ⟨h2, h3⟩⟩
  · simp only [h1, bind, Except.bind]
  · simp [h1, h2, bind, Except.bind]
  · simp [h1, h2, h3, bind, Except.bind]

end

section
open Classical
variable {c d : Nat} (h : c ≠ d)
include h

theorem foreign_setContains {t : VSet} (ht : t.Normal) (et : t ≠ .empty) (ut : t ≠ .universal) (v : Version) :
    ((∃ r, Item.range r ∈ t.extract) → (t.ofClass d).contains ⟨c, v⟩ = .error .typeError) ∧
    ((∀ r, Item.range r ∉ t.extract) → (t.ofClass d).contains ⟨c, v⟩ = .ok false) := by
  obtain ⟨-, h1, h2⟩ := C99_contains t ht d c h.symm v
  refine ⟨?_, h2⟩
  rintro ⟨r, hr⟩
  exact h1 ⟨r, hr, ((loose_extract ht et ut).2.1 _ hr).2⟩

theorem foreign_setIntersection (S : ItemSort) (lim : Nat) {s t : VSet} (hs : s.Normal) (ht : t.Normal)
    (es : s ≠ .empty) (et : t ≠ .empty) (us : s ≠ .universal) (ut : t ≠ .universal) :
    (s.ofClass c).intersection S lim (t.ofClass d) =
      if (∃ v, s = .item (.point v)) ∧ ∀ r, Item.range r ∉ t.extract then .ok .empty else .error .typeError := by
  have ls := loose_extract hs es us
  have lt := loose_extract ht et ut
  cases s with
  | empty => exact absurd rfl es
  | union l =>
    rw [if_neg (by simp)]
    have := foreign_intersectionLoop h ls lt
    rw [← extract_ofClass d t] at this
    show (do TSet.merge S lim (← TSet.intersectionLoop (l.map (Item.ofClass c)) (t.ofClass d).extract)) = _
    rw [show TSet.intersectionLoop (l.map (·.ofClass c)) (t.ofClass d).extract = _ from this]
    rfl
  | item i =>
    cases i with
    | point v =>
      obtain ⟨h1, h2⟩ := foreign_setContains h ht et ut v
      show (do if ← (t.ofClass d).contains ⟨c, v⟩ then .ok (.item (.point ⟨c, v⟩)) else .ok .empty : Except PyErr TSet) = _
      by_cases hr : ∀ r, Item.range r ∉ t.extract
      · rw [h2 hr, if_pos ⟨⟨v, rfl⟩, hr⟩]; rfl
      · rw [if_neg (fun hx => hr hx.2)]
        simp only [not_forall, not_not] at hr
        rw [h1 hr]; rfl
    | range r =>
      rw [if_neg (by simp)]
      have er := (ls.2.1 (.range r) (by simp [VSet.extract])).2
      cases t with
      | empty => exact absurd rfl et
      | item j =>
        have ej := (lt.2.1 j (by simp [VSet.extract])).2
        exact ((C99_items (.range r) j hs ht c d h).2.2 er ej).2.2 ⟨r, .inl rfl⟩
      | union l =>
        show (do TSet.merge S lim (← TSet.intersectionLoop (l.map (Item.ofClass d)) [(Item.range r).ofClass c])) = _
        rw [show TSet.intersectionLoop (l.map (·.ofClass d)) [(Item.range r).ofClass c] = _ from foreign_intersectionLoop h.symm lt ls]
        rfl

theorem foreign_setDifference (S : ItemSort) (lim : Nat) {s t : VSet} (hs : s.Normal) (ht : t.Normal)
    (es : s ≠ .empty) (et : t ≠ .empty) (us : s ≠ .universal) (ut : t ≠ .universal) :
    (s.ofClass c).difference S lim (t.ofClass d) =
      if (∃ v, s = .item (.point v)) ∧ ∀ r, Item.range r ∉ t.extract then .ok (s.ofClass c) else .error .typeError := by
  have ls := loose_extract hs es us
  have lt := loose_extract ht et ut
  cases s with
  | empty => exact absurd rfl es
  | union l =>
    rw [if_neg (by simp)]
    have := foreign_compute h lim ls lt
    rw [← extract_ofClass d t] at this
    show (do TSet.merge S lim (← TSet.Diff.compute lim (l.map (Item.ofClass c)) (t.ofClass d).extract)) = _
    rw [show TSet.Diff.compute lim (l.map (·.ofClass c)) (t.ofClass d).extract = _ from this]
    rfl
  | item i =>
    cases i with
    | point v =>
      obtain ⟨h1, h2⟩ := foreign_setContains h ht et ut v
      show (do if ← (t.ofClass d).contains ⟨c, v⟩ then .ok .empty else .ok (.item (.point ⟨c, v⟩)) : Except PyErr TSet) = _
      by_cases hr : ∀ r, Item.range r ∉ t.extract
      · rw [h2 hr, if_pos ⟨⟨v, rfl⟩, hr⟩]; rfl
      · rw [if_neg (fun hx => hr hx.2)]
        simp only [not_forall, not_not] at hr
        rw [h1 hr]; rfl
    | range r =>
      rw [if_neg (by simp)]
      have er := ls.2.1 (.range r) (by simp [VSet.extract])
      cases t with
      | empty => exact absurd rfl et
      | item j =>
        have ej := lt.2.1 j (by simp [VSet.extract])
        exact foreign_difference h lim r j er.1 ej.1 er.2 ej.2
      | union l =>
        show (do TSet.merge S lim (← TItem.differenceIterator lim ((Item.range r).ofClass c) (l.map (Item.ofClass d)))) = _
        rw [show TItem.differenceIterator lim ((Item.range r).ofClass c) (l.map (·.ofClass d)) = _ from foreign_iterator h lim hs er.2 lt]
        rfl

theorem foreign_item_includes (a b : Item) (ha : a.Normal) (hb : b.Normal) (ea : ¬ a.Endless) :
    (a.ofClass c).includes (b.ofClass d) =
      if (∃ r, a = .range r) ∧ ((a.min ≠ none ∧ b.min ≠ none) ∨ (a.min = none ∧ b.max ≠ none)) then .error .typeError else .ok false := by
  cases a with
  | range r =>
    have hr : ¬ (r.min = none ∧ r.max = none) := ea
    cases b with
    | range s =>
      rw [foreign_includes h r s ha hb]
      simp only [Item.min, Item.max, Item.fields]
      by_cases h1 : r.min = none
      · have h2 : r.max ≠ none := fun h2 => hr ⟨h1, h2⟩
        by_cases h3 : s.max = none <;> simp [h1, h2, h3]
      · by_cases h3 : s.min = none <;> simp [h1, h3]
    | point w =>
      have := foreign_contains (.range r) h w
      simp only [if_neg hr] at this
      rw [if_pos (by simp only [Item.min, Item.max, Item.fields]; by_cases h1 : r.min = none <;> simp [h1])]
      simpa [Item.ofClass, TItem.includes] using this
  | point v =>
    rw [if_neg (by simp)]
    cases b with
    | range s =>
      have := isEmpty_ofClass d (.range s)
      rw [isEmpty_false hb] at this
      simp only [Item.ofClass] at this ⊢
      simp only [TItem.includes, this]
    | point w => simp [Item.ofClass, TItem.includes, TItem.isEmpty, TItem.contains, foreign_eq h]

theorem foreign_includesAll : ∀ (l : List Item) (b : Item) (m : List Item), (∀ i ∈ l, i.Normal ∧ ¬ i.Endless) → b.Normal →
    TSet.includesLoop (l.map (·.ofClass c)) ((b :: m).map (·.ofClass d)) =
      if ∃ r, Item.range r ∈ l ∧ ((r.min ≠ none ∧ b.min ≠ none) ∨ (r.min = none ∧ b.max ≠ none)) then .error .typeError else .ok false
  | [], _, _, _, _ => by simp [TSet.includesLoop]
  | i :: l, b, m, hl, nb => by
    have ih := foreign_includesAll l b m (fun x hx => hl x (by simp [hx])) nb
    have hi := foreign_item_includes h i b (hl i (by simp)).1 nb (hl i (by simp)).2
    simp only [List.map_cons] at ih ⊢
    rw [TSet.includesLoop, hi, ih]
    by_cases h1 : (∃ r, i = .range r) ∧ ((i.min ≠ none ∧ b.min ≠ none) ∨ (i.min = none ∧ b.max ≠ none))
    · obtain ⟨⟨r, rfl⟩, h2⟩ := h1
      rw [if_pos ⟨⟨r, rfl⟩, h2⟩]
      have : ∃ r', Item.range r' ∈ Item.range r :: l ∧ ((r'.min ≠ none ∧ b.min ≠ none) ∨ (r'.min = none ∧ b.max ≠ none)) :=
        ⟨r, by simp, h2⟩
      simp only [this, if_true]; rfl
    · rw [if_neg h1]
      have : (∃ r, Item.range r ∈ i :: l ∧ ((r.min ≠ none ∧ b.min ≠ none) ∨ (r.min = none ∧ b.max ≠ none))) ↔
          ∃ r, Item.range r ∈ l ∧ ((r.min ≠ none ∧ b.min ≠ none) ∨ (r.min = none ∧ b.max ≠ none)) := by
        constructor
        · rintro ⟨r, hr, h2⟩
          rcases List.mem_cons.1 hr with rfl | hr
          · exact absurd ⟨⟨r, rfl⟩, h2⟩ h1
          · exact ⟨r, hr, h2⟩
        · rintro ⟨r, hr, h2⟩; exact ⟨r, List.mem_cons_of_mem _ hr, h2⟩
      simp only [this]
      rfl

theorem foreign_setIncludes {s t : VSet} (hs : s.Normal) (ht : t.Normal)
    (es : s ≠ .empty) (et : t ≠ .empty) (us : s ≠ .universal) (ut : t ≠ .universal) :
    (s.ofClass c).includes (t.ofClass d) =
      if ∃ r, Item.range r ∈ s.extract ∧ ∃ b ∈ t.extract.head?, (r.min ≠ none ∧ b.min ≠ none) ∨ (r.min = none ∧ b.max ≠ none)
      then .error .typeError else .ok false := by
  have ls := loose_extract hs es us
  have lt := loose_extract ht et ut
  obtain ⟨b, m, hb⟩ := List.exists_cons_of_ne_nil lt.1
  have nb : b.Normal := (lt.2.1 b (by simp [hb])).1
  simp only [hb, List.head?_cons, Option.mem_def, Option.some.injEq, exists_eq_left']
  cases s with
  | empty => exact absurd rfl es
  | union l =>
    have := foreign_includesAll h l b m ls.2.1 nb
    rw [← hb, ← extract_ofClass d t] at this
    exact this
  | item i =>
    have ni := ls.2.1 i (by simp [VSet.extract])
    have hi := foreign_item_includes h i b ni.1 nb ni.2
    have hc : (∃ r, Item.range r ∈ (VSet.item i).extract ∧ ((r.min ≠ none ∧ b.min ≠ none) ∨ (r.min = none ∧ b.max ≠ none))) ↔
        ((∃ r, i = .range r) ∧ ((i.min ≠ none ∧ b.min ≠ none) ∨ (i.min = none ∧ b.max ≠ none))) := by
      constructor
      · rintro ⟨r, hr, h2⟩
        obtain rfl : Item.range r = i := by simpa [VSet.extract] using hr
        exact ⟨⟨r, rfl⟩, h2⟩
      · rintro ⟨⟨r, rfl⟩, h2⟩
        exact ⟨r, by simp [VSet.extract], h2⟩
    rw [if_congr hc rfl rfl, ← hi]
    cases t with
    | empty => exact absurd rfl et
    | item j =>
      obtain ⟨rfl, rfl⟩ : j = b ∧ [] = m := by simpa [VSet.extract] using hb
      cases i <;> rfl
    | union k =>
      obtain rfl : k = b :: m := by simpa [VSet.extract] using hb
      cases i with
      | point v =>
        rw [hi, if_neg (by simp)]; rfl
      | range r =>
        show (do if ← ((Item.range r).ofClass c).includes (b.ofClass d) then
          TSet.allIncludes ((Item.range r).ofClass c) (m.map (·.ofClass d)) else .ok false : Except PyErr Bool) = _
        rw [hi]
        split <;> rfl

theorem foreign_item_intersects (a b : Item) (ea : ¬ a.Endless) (eb : ¬ b.Endless) :
    (a.ofClass c).intersects (b.ofClass d) =
      if (∃ v, a = .point v) ∧ (∃ w, b = .point w) then .ok false
      else if (a.min = none ∧ b.min = none) ∨ (a.max = none ∧ b.max = none) then .ok true else .error .typeError := by
  cases a with
  | range r =>
    rw [if_neg (by simp)]
    have hr : ¬ (r.min = none ∧ r.max = none) := ea
    cases b with
    | range s =>
      have hs : ¬ (s.min = none ∧ s.max = none) := eb
      rw [foreign_intersects h]
      simp only [Item.min, Item.max, Item.fields]
      by_cases h1 : r.min = none <;> by_cases h2 : r.max = none <;> by_cases h3 : s.min = none <;> by_cases h4 : s.max = none <;>
        simp_all
    | point w =>
      have := foreign_contains (.range r) h w
      simp only [if_neg hr] at this
      rw [if_neg (by simp [Item.min, Item.max, Item.fields])]
      simpa [Item.ofClass, TItem.intersects] using this
  | point v =>
    cases b with
    | point w => simp [Item.ofClass, TItem.intersects, TItem.contains, foreign_eq h.symm]
    | range s =>
      have hs : ¬ (s.min = none ∧ s.max = none) := eb
      have := foreign_contains (.range s) h.symm v
      simp only [if_neg hs] at this
      rw [if_neg (by simp), if_neg (by simp [Item.min, Item.max, Item.fields])]
      simpa [Item.ofClass, TItem.intersects] using this

theorem foreign_setIntersects {s t : VSet} (hs : s.Normal) (ht : t.Normal)
    (es : s ≠ .empty) (et : t ≠ .empty) (us : s ≠ .universal) (ut : t ≠ .universal) :
    (s.ofClass c).intersects (t.ofClass d) =
      if (∃ v, s = .item (.point v)) ∧ ∀ r, Item.range r ∉ t.extract then .ok false
      else if ∃ a ∈ s.extract.head?, ∃ b ∈ t.extract.head?, (a.min = none ∧ b.min = none) ∨ (a.max = none ∧ b.max = none) then .ok true
      else .error .typeError := by
  have ls := loose_extract hs es us
  have lt := loose_extract ht et ut
  obtain ⟨b, m, hb⟩ := List.exists_cons_of_ne_nil lt.1
  have eb : ¬ b.Endless := (lt.2.1 b (by simp [hb])).2
  obtain ⟨a, l, ha⟩ := List.exists_cons_of_ne_nil ls.1
  have ea : ¬ a.Endless := (ls.2.1 a (by simp [ha])).2
  have hi := foreign_item_intersects h a b ea eb
  simp only [ha, hb, List.head?_cons, Option.mem_def, Option.some.injEq, exists_eq_left']
  cases s with
  | empty => exact absurd rfl es
  | union k =>
    obtain rfl : k = a :: l := by simpa [VSet.extract] using ha
    rw [if_neg (by simp)]
    show TSet.intersectsLoop (a.ofClass c :: l.map (·.ofClass c)) (t.ofClass d).extract = _
    rw [extract_ofClass, hb, List.map_cons, TSet.intersectsLoop, hi]
    by_cases h1 : (∃ v, a = .point v) ∧ (∃ w, b = .point w)
    · obtain ⟨⟨v, rfl⟩, ⟨w, rfl⟩⟩ := h1
      rw [if_pos ⟨⟨v, rfl⟩, ⟨w, rfl⟩⟩, if_neg (by simp [Item.min, Item.max, Item.fields]), foreign_higher_points h.symm]
      rfl
    · rw [if_neg h1]
      split <;> rfl
  | item i =>
    obtain ⟨rfl, rfl⟩ : i = a ∧ [] = l := by simpa [VSet.extract] using ha
    cases i with
    | point v =>
      obtain ⟨h1, h2⟩ := foreign_setContains h ht et ut v
      show (t.ofClass d).contains ⟨c, v⟩ = _
      rw [← hb]
      by_cases hr : ∀ r, Item.range r ∉ t.extract
      · rw [h2 hr, if_pos ⟨⟨v, rfl⟩, hr⟩]
      · rw [if_neg (fun hx => hr hx.2), if_neg (by simp [Item.min, Item.max, Item.fields])]
        simp only [not_forall, not_not] at hr
        exact h1 hr
    | range r =>
      rw [if_neg (by simp)] at hi ⊢
      rw [← hi]
      cases t with
      | empty => exact absurd rfl et
      | item j =>
        obtain ⟨rfl, rfl⟩ : j = b ∧ [] = m := by simpa [VSet.extract] using hb
        rfl
      | union k =>
        obtain rfl : k = b :: m := by simpa [VSet.extract] using hb
        show (do if ← ((Item.range r).ofClass c).intersects (b.ofClass d) then .ok true else
          TSet.anyIntersects ((Item.range r).ofClass c) (m.map (·.ofClass d)) : Except PyErr Bool) = _
        rw [hi]
        split <;> rfl

end

/-! ## A sort -/

/-- Insertion of an item before the first item that is not below it. -/
def insertSort (x : TItem) : List TItem → Except PyErr (List TItem)
  | [] => .ok [x]
  | y :: l => do
    match ← y.compare x with
    | .lt => do .ok (y :: (← insertSort x l))
    | _ => .ok (x :: y :: l)

def insertionSort : List TItem → Except PyErr (List TItem)
  | [] => .ok []
  | x :: l => do insertSort x (← insertionSort l)

theorem chain_tail {y : TItem} {l : List TItem} (h : (y :: l).IsChain Sorted2) : l.IsChain Sorted2 := by
  cases l with
  | nil => simp
  | cons => exact (List.isChain_cons_cons.1 h).2

theorem chain_head {y : TItem} {l : List TItem} (h : (y :: l).IsChain Sorted2) : ∀ z ∈ l.head?, Sorted2 y z := by
  cases l with
  | nil => simp
  | cons => simpa using (List.isChain_cons_cons.1 h).1

theorem chain_cons {y : TItem} {l : List TItem} (h : ∀ z ∈ l.head?, Sorted2 y z) (hl : l.IsChain Sorted2) :
    (y :: l).IsChain Sorted2 := by
  cases l with
  | nil => simp
  | cons => exact List.isChain_cons_cons.2 ⟨h _ (by simp), hl⟩

theorem insertSort_spec (x : TItem) : ∀ (l l' : List TItem), insertSort x l = .ok l' → l.IsChain Sorted2 →
    l'.Perm (x :: l) ∧ l'.IsChain Sorted2 ∧ ∀ y, (Sorted2 y x ∧ ∀ z ∈ l.head?, Sorted2 y z) → ∀ z ∈ l'.head?, Sorted2 y z
  | [], l', h, _ => by
    obtain rfl : [x] = l' := Except.ok.inj h
    exact ⟨.refl _, by simp, fun y hy z hz => by simp at hz; exact hz ▸ hy.1⟩
  | y :: l, l', h, hl => by
    simp only [insertSort, bind, Except.bind] at h
    cases ho : y.compare x with
    | error e => rw [ho] at h; cases h
    | ok o =>
      rw [ho] at h
      have stop : o ≠ .lt → l' = x :: y :: l → l'.Perm (x :: y :: l) ∧ l'.IsChain Sorted2 ∧
          ∀ w, (Sorted2 w x ∧ ∀ z ∈ (y :: l).head?, Sorted2 w z) → ∀ z ∈ l'.head?, Sorted2 w z := by
        rintro h1 rfl
        exact ⟨.refl _, List.isChain_cons_cons.2 ⟨.inl ⟨o, ho, h1⟩, hl⟩, fun w hw z hz => by simp at hz; exact hz ▸ hw.1⟩
      cases o with
      | eq => exact stop (by decide) (Except.ok.inj h).symm
      | gt => exact stop (by decide) (Except.ok.inj h).symm
      | lt =>
        cases hr : insertSort x l with
        | error e => rw [hr] at h; cases h
        | ok r =>
          rw [hr] at h
          obtain rfl : y :: r = l' := Except.ok.inj h
          obtain ⟨h1, h2, h3⟩ := insertSort_spec x l r hr (chain_tail hl)
          refine ⟨(h1.cons y).trans (.swap ..), ?_, fun w hw z hz => hw.2 z (by simpa using hz)⟩
          exact chain_cons (h3 y ⟨.inr ho, chain_head hl⟩) h2

theorem insertionSort_spec : ∀ l l' : List TItem, insertionSort l = .ok l' → l'.Perm l ∧ l'.IsChain Sorted2
  | [], l', h => by
    obtain rfl : [] = l' := Except.ok.inj h
    exact ⟨.refl _, by simp⟩
  | x :: l, l', h => by
    simp only [insertionSort, bind, Except.bind] at h
    cases hr : insertionSort l with
    | error e => rw [hr] at h; cases h
    | ok r =>
      rw [hr] at h
      obtain ⟨h1, h2⟩ := insertionSort_spec l r hr
      obtain ⟨h3, h4, -⟩ := insertSort_spec x r l' h h2
      exact ⟨h3.trans (h1.cons x), h4⟩

theorem insertSort_raises (x : TItem) {e : PyErr} : ∀ l : List TItem, insertSort x l = .error e → ∃ y ∈ l, y.compare x = .error e
  | [], h => by cases h
  | y :: l, h => by
    simp only [insertSort, bind, Except.bind] at h
    cases ho : y.compare x with
    | error f => rw [ho] at h; cases h; exact ⟨y, by simp, ho⟩
    | ok o =>
      rw [ho] at h
      cases o with
      | eq => cases h
      | gt => cases h
      | lt =>
        cases hr : insertSort x l with
        | ok r => rw [hr] at h; cases h
        | error f =>
          rw [hr] at h
          cases h
          obtain ⟨z, hz, h1⟩ := insertSort_raises x l hr
          exact ⟨z, by simp [hz], h1⟩

theorem insertionSort_raises {e : PyErr} : ∀ l : List TItem, insertionSort l = .error e → ∃ a ∈ l, ∃ b ∈ l, a.compare b = .error e
  | [], h => by cases h
  | x :: l, h => by
    simp only [insertionSort, bind, Except.bind] at h
    cases hr : insertionSort l with
    | error f =>
      rw [hr] at h; cases h
      obtain ⟨a, ha, b, hb, h1⟩ := insertionSort_raises l hr
      exact ⟨a, by simp [ha], b, by simp [hb], h1⟩
    | ok r =>
      rw [hr] at h
      obtain ⟨y, hy, h1⟩ := insertSort_raises x r h
      exact ⟨y, List.mem_cons_of_mem _ ((insertionSort_spec l r hr).1.mem_iff.1 hy), x, by simp, h1⟩

theorem insertSort_stable (le : TItem → TItem → Bool) (x : TItem) : ∀ l : List TItem,
    (∀ b ∈ l, ∃ o, b.compare x = .ok o ∧ (le x b = true ↔ o ≠ .lt)) →
    insertSort x l = .ok (l.orderedInsert (fun a b => le a b = true) x)
  | [], _ => rfl
  | y :: l, h => by
    obtain ⟨o, h1, h2⟩ := h y (by simp)
    simp only [insertSort, h1, bind, Except.bind, List.orderedInsert]
    by_cases h3 : o = .lt
    · subst h3
      rw [if_neg (fun hx => (h2.1 hx) rfl), insertSort_stable le x l (fun b hb => h b (by simp [hb]))]
    · rw [if_pos (h2.2 h3)]
      cases o <;> simp_all

theorem insertionSort_stable (le : TItem → TItem → Bool) : ∀ l : List TItem,
    (∀ a ∈ l, ∀ b ∈ l, ∃ o, b.compare a = .ok o ∧ (le a b = true ↔ o ≠ .lt)) →
    insertionSort l = .ok (l.insertionSort (fun a b => le a b = true))
  | [], _ => rfl
  | x :: l, h => by
    simp only [insertionSort, insertionSort_stable le l (fun a ha b hb => h a (by simp [ha]) b (by simp [hb])), bind, Except.bind]
    rw [insertSort_stable le x _ (fun b hb => h x (by simp) b ?_)]
    · rfl
    · exact List.mem_cons_of_mem _ ((List.perm_insertionSort _ l).mem_iff.1 hb)

/-- An implementation of `list.sort` exists. -/
def ItemSort.insertion : ItemSort where
  sort := insertionSort
  returns := insertionSort_spec
  raises := fun _ _ => insertionSort_raises _
  stable := fun l le h _ _ => insertionSort_stable le l h

end Verif
