import Verif.Proofs.SetLevel2
/-!
# How many items the results of set operations have
-/

namespace Verif
open scoped Verif

/-- The number of items of a set. -/
def VSet.size (s : VSet) : Nat := s.extract.length

theorem mergeLoop_size {f : Item → Item → Except PyErr VSet} (l : List Item) : ∀ (m r : List Item),
    VSet.mergeLoop f m l = .ok r → r.length ≤ m.length + l.length := by
  induction l with
  | nil => intro m r h; cases m <;> (simp only [VSet.mergeLoop, Except.ok.injEq] at h; subst h; simp)
  | cons i l ih =>
    intro m r h
    cases m with
    | nil =>
      simp only [VSet.mergeLoop] at h
      have := ih _ _ h
      simp only [List.length_cons, List.length_nil] at this ⊢; omega
    | cons x m =>
      simp only [VSet.mergeLoop] at h
      split at h
      · cases hf : f x i with
        | error e => rw [hf] at h; cases h
        | ok s =>
          rw [hf] at h
          cases s with
          | empty => cases h
          | union _ => cases h
          | item j =>
            have := ih _ _ h
            simp only [List.length_cons] at this ⊢; omega
      · have := ih _ _ h
        simp only [List.length_cons] at this ⊢; omega

theorem mergeItems_size {f : Item → Item → Except PyErr VSet} {l : List Item} {s : VSet} (h : VSet.mergeItems f l = .ok s) :
    s.size ≤ l.length := by
  unfold VSet.mergeItems at h
  split at h
  · cases h; simp [VSet.size, VSet.extract]
  · rename_i hne
    have hl : 1 ≤ l.length := by cases l <;> simp at hne ⊢
    split at h
    · cases h; exact hl
    · cases hm : VSet.mergeLoop f [] (VSet.sortItems l) with
      | error e => rw [hm] at h; cases h
      | ok m =>
        have hlen := mergeLoop_size _ _ _ hm
        rw [VSet.sortItems, List.length_insertionSort, List.length_nil, Nat.zero_add] at hlen
        rw [hm] at h
        have h : (match m with | [i] => Except.ok (VSet.item i) | merged => VSet.mkUnion merged.reverse) = .ok s := h
        split at h
        · cases h; exact hl
        · unfold VSet.mkUnion at h
          split at h
          · cases h
          · split at h
            · cases h
            · cases h; simpa [VSet.size, VSet.extract] using hlen

theorem unionOf_size {lim : Nat} {l : List VSet} {s : VSet} (h : VSet.unionOf lim l = .ok s) : s.size ≤ (l.map VSet.size).sum := by
  have := mergeItems_size h
  rw [List.length_flatMap] at this
  exact this

theorem unionOf_items_size {lim : Nat} {l : List Item} {s : VSet} (h : VSet.unionOf lim (l.map VSet.item) = .ok s) : s.size ≤ l.length := by
  have := unionOf_size h
  rw [List.map_map] at this
  have e : l.map (VSet.size ∘ VSet.item) = l.map (fun _ => 1) := by
    apply List.map_congr_left; intro i _; rfl
  rw [e] at this
  simpa using this

theorem unionItem_size {lim : Nat} {a b : Item} {s : VSet} (h : Item.unionItem lim a b = .ok s) : s.size ≤ 2 := by
  have one : ∀ i : Item, (VSet.item i).size ≤ 2 := fun i => by simp [VSet.size, VSet.extract]
  have two : ∀ {f : Item → Item → Except PyErr VSet} {x y : Item} {s : VSet}, VSet.mergeItems f [x, y] = .ok s → s.size ≤ 2 := fun h => mergeItems_size h
  cases lim with
  | zero => cases h
  | succ lim =>
    cases a <;> cases b <;> simp only [Item.unionItem] at h <;> (repeat' split at h) <;>
      first
      | (cases h; exact one _)
      | exact two h
      | (cases hx : Item.mkRange _ _ _ _ <;> rw [hx] at h <;> cases h; exact one _)

theorem unionWith_size {lim : Nat} {a b s : VSet} (h : a.unionWith lim b = .ok s) : s.size ≤ a.size + b.size := by
  have two : ∀ {x y : VSet} {s : VSet}, VSet.unionOf lim [x, y] = .ok s → s.size ≤ x.size + y.size := fun h => by simpa using unionOf_size h
  cases a with
  | empty => cases h; omega
  | union l => exact two h
  | item i =>
    cases b with
    | empty => cases i <;> (cases h; omega)
    | item j =>
      have h : i.unionItem lim j = .ok s := by cases i <;> exact h
      simpa [VSet.size, VSet.extract] using unionItem_size h
    | union l =>
      cases i with
      | range r => have := two h; omega
      | point v =>
        simp only [VSet.unionWith] at h
        split at h
        · cases h; omega
        · exact two h

theorem intersectionItem_size {a b : Item} {s : VSet} (h : a.intersectionItem b = .ok s) : s.size ≤ 1 := by
  cases a with
  | point v => cases b <;> (simp only [Item.intersectionItem] at h; cases h; split <;> simp [VSet.size, VSet.extract])
  | range r => cases b with
    | point v => simp only [Item.intersectionItem] at h; cases h; split <;> simp [VSet.size, VSet.extract]
    | range t =>
      simp only [Item.intersectionItem] at h
      split at h
      · cases h; simp [VSet.size, VSet.extract]
      · split at h
        · cases h; simp [VSet.size, VSet.extract]
        · revert h
          generalize Item.mkRange _ _ _ _ = x
          intro h
          cases x with
          | error e => cases h
          | ok i =>
            have h : (if i.isPoint = true then (do .ok (.item (.point (← i.version)))) else .ok (.item i)) = Except.ok s := h
            split at h
            · cases hv : i.version with
              | error e => rw [hv] at h; cases h
              | ok v => rw [hv] at h; cases h; simp [VSet.size, VSet.extract]
            · cases h; simp [VSet.size, VSet.extract]

theorem intersectionLoop_size (n : Nat) : ∀ (xs ys out : List Item), xs.length + ys.length ≤ n → VSet.intersectionLoop xs ys = .ok out →
    out.length ≤ xs.length + ys.length - 1 := by
  induction n with
  | zero =>
    intro xs ys out hn h
    have : xs = [] := List.eq_nil_of_length_eq_zero (by omega)
    subst this
    rw [VSet.intersectionLoop] at h; cases h; simp
  | succ n ih =>
    intro xs ys out hn h
    match xs, ys with
    | [], ys => rw [VSet.intersectionLoop] at h; cases h; simp
    | x :: xs, [] => rw [VSet.intersectionLoop] at h; cases h; simp
    | x :: xs, y :: ys =>
      rw [VSet.intersectionLoop] at h
      cases hi : x.intersectionItem y with
      | error e => rw [hi] at h; cases h
      | ok t =>
        rw [hi] at h
        have hrest : ∀ rest, (if y.isHigher x = true then VSet.intersectionLoop xs (y :: ys) else VSet.intersectionLoop (x :: xs) ys) = .ok rest →
            rest.length + 1 ≤ (x :: xs).length + (y :: ys).length - 1 := by
          intro rest hr
          simp only [List.length_cons] at hn ⊢
          split at hr
          · have := ih xs (y :: ys) rest (by simp only [List.length_cons]; omega) hr
            cases xs with
            | nil => rw [VSet.intersectionLoop] at hr; cases hr; simp
            | cons z zs => simp only [List.length_cons] at this ⊢; omega
          · have := ih (x :: xs) ys rest (by simp only [List.length_cons]; omega) hr
            cases ys with
            | nil => rw [VSet.intersectionLoop] at hr; cases hr; simp
            | cons z zs => simp only [List.length_cons] at this ⊢; omega
        have hfin : ∀ rest : List Item, rest.length + 1 ≤ (x :: xs).length + (y :: ys).length - 1 →
            (match (generalizing := false) t with | .item i => Except.ok (i :: rest) | _ => .ok rest) = Except.ok (ε := PyErr) out →
            out.length ≤ (x :: xs).length + (y :: ys).length - 1 := by
          intro rest hl h
          cases t with
          | empty => cases h; omega
          | union _ => cases h; omega
          | item i => cases h; simpa using hl
        by_cases hh : y.isHigher x = true
        · simp only [hh, if_true] at hrest h
          cases hr : VSet.intersectionLoop xs (y :: ys) with
          | error e => rw [hr] at h; cases h
          | ok rest => rw [hr] at h; exact hfin rest (hrest rest hr) h
        · simp only [hh, if_false, Bool.false_eq_true] at hrest h
          cases hr : VSet.intersectionLoop (x :: xs) ys with
          | error e => rw [hr] at h; cases h
          | ok rest => rw [hr] at h; exact hfin rest (hrest rest hr) h

theorem intersection_size {lim : Nat} {a b s : VSet} (h : a.intersection lim b = .ok s) : s.size ≤ a.size + b.size - 1 := by
  cases a with
  | empty => cases h; simp [VSet.size, VSet.extract]
  | union l =>
    simp only [VSet.intersection] at h
    cases hl : VSet.intersectionLoop l b.extract with
    | error e => rw [hl] at h; cases h
    | ok m =>
      rw [hl] at h
      exact (unionOf_items_size h).trans (intersectionLoop_size _ l b.extract m le_rfl hl)
  | item i =>
    cases i with
    | point v =>
      simp only [VSet.intersection] at h; cases h
      split
      · cases b with
        | empty => rename_i hb; cases hb
        | item j => simp [VSet.size, VSet.extract]
        | union l =>
          rename_i hb
          cases l with
          | nil => cases hb
          | cons x l => simp [VSet.size, VSet.extract]
      · simp [VSet.size, VSet.extract]
    | range r =>
      cases b with
      | empty => cases h; simp [VSet.size, VSet.extract]
      | item j => simpa [VSet.size, VSet.extract] using intersectionItem_size h
      | union l =>
        simp only [VSet.intersection] at h
        cases hl : VSet.intersectionLoop l [.range r] with
        | error e => rw [hl] at h; cases h
        | ok m =>
          rw [hl] at h
          have h1 := unionOf_items_size h
          have h2 := intersectionLoop_size _ l [.range r] m le_rfl hl
          simp only [VSet.size, VSet.extract, List.length_cons, List.length_nil] at h1 h2 ⊢
          omega

theorem differenceItem_size {lim : Nat} {a b : Item} {s : VSet} (h : a.differenceItem lim b = .ok s) : s.size ≤ 2 := by
  have one : ∀ i : Item, (VSet.item i).size ≤ 2 := fun i => by simp [VSet.size, VSet.extract]
  have zero : VSet.empty.size ≤ 2 := by simp [VSet.size, VSet.extract]
  have two : ∀ {f : Item → Item → Except PyErr VSet} {x y : Item} {s : VSet}, VSet.mergeItems f [x, y] = .ok s → s.size ≤ 2 := fun h => mergeItems_size h
  cases a with
  | point v => cases b <;> (simp only [Item.differenceItem] at h; cases h; split <;> first | exact one _ | exact zero)
  | range r =>
    cases b with
    | point v =>
      simp only [Item.differenceItem] at h
      split at h
      · cases h; exact one _
      · split at h
        · split at h
          · cases h; exact one _
          · cases hx : Item.mkRange (Item.range r).min (Item.range r).max false (Item.range r).includeMax with
            | error e => rw [hx] at h; cases h
            | ok i => rw [hx] at h; cases h; exact one _
        · split at h
          · split at h
            · cases h; exact one _
            · cases hx : Item.mkRange (Item.range r).min (Item.range r).max (Item.range r).includeMin false with
              | error e => rw [hx] at h; cases h
              | ok i => rw [hx] at h; cases h; exact one _
          · cases hx : Item.mkRange (Item.range r).min (some v) (Item.range r).includeMin false with
            | error e => rw [hx] at h; cases h
            | ok i =>
              cases hy : Item.mkRange (some v) (Item.range r).max false (Item.range r).includeMax with
              | error e => rw [hx, hy] at h; cases h
              | ok j => rw [hx, hy] at h; exact two h
    | range t =>
      simp only [Item.differenceItem] at h
      split at h
      · cases h; exact one _
      · cases hx : Item.differenceBefore (.range r) (.range t) with
        | error e => rw [hx] at h; cases h
        | ok x =>
          cases hy : Item.differenceAfter (.range r) (.range t) with
          | error e => rw [hx, hy] at h; cases h
          | ok y =>
            rw [hx, hy] at h
            cases x <;> cases y
            · cases h; exact zero
            · cases h; exact one _
            · cases h; exact one _
            · exact two h

theorem differenceIterator_size {lim : Nat} (l : List Item) : ∀ (cur : Item) (out : List Item),
    cur.differenceIterator lim l = .ok out → out.length ≤ 1 + l.length := by
  induction l with
  | nil => intro cur out h; cases h; simp
  | cons x l ih =>
    intro cur out h
    rw [Item.differenceIterator] at h
    split at h
    · have := ih _ _ h; simp only [List.length_cons]; omega
    · split at h
      · cases h; simp
      · cases hd : cur.differenceItem lim x with
        | error e => rw [hd] at h; cases h
        | ok t =>
          rw [hd] at h
          cases t with
          | empty => have := ih _ _ h; simp only [List.length_cons]; omega
          | item i => have := ih _ _ h; simp only [List.length_cons]; omega
          | union m =>
            match m, h with
            | [], h => cases h
            | [_], h => cases h
            | _ :: _ :: _ :: _, h => cases h
            | [a, b], h =>
              cases hr : b.differenceIterator lim l with
              | error e => simp only [bind, Except.bind, hr] at h; cases h
              | ok rest =>
                have := ih _ _ hr
                simp only [bind, Except.bind, hr] at h
                cases h
                simp only [List.length_cons]; omega

namespace VSet.Diff

/-- The bound kept while the loop runs. -/
def Fits (n : Nat) (d : VSet.Diff) : Prop := d.result.length + d.items.length + d.otherItems.length + 2 ≤ n

theorem nextOther_fits {n : Nat} {d : VSet.Diff} (h : d.result.length + d.items.length + d.otherItems.length + 1 ≤ n) :
    (d.nextOtherCurrent.2 = true → d.nextOtherCurrent.1.Fits n) ∧ d.nextOtherCurrent.1.result.length ≤ n := by
  unfold nextOtherCurrent
  cases ho : d.otherItems with
  | cons o rest =>
    rw [ho, List.length_cons] at h
    exact ⟨fun _ => by simp only [Fits]; omega, by simp only; omega⟩
  | nil =>
    refine ⟨by simp, ?_⟩
    rw [ho, List.length_nil] at h
    cases d.current <;> simp only [List.length_append, List.length_reverse, List.length_cons] <;> omega

theorem nextCurrent_fits {n : Nat} {d : VSet.Diff} (b : Bool) (h : d.Fits n) :
    ((d.nextCurrent b).2 = true → (d.nextCurrent b).1.Fits n) ∧ (d.nextCurrent b).1.result.length ≤ n := by
  unfold nextCurrent
  unfold Fits at *
  cases hi : d.items with
  | nil =>
    refine ⟨by simp, ?_⟩
    cases b <;> cases d.current <;> simp only [List.length_cons] <;> omega
  | cons i rest =>
    rw [hi, List.length_cons] at h
    refine ⟨fun _ => ?_, ?_⟩ <;> cases b <;> cases d.current <;> simp only [List.length_cons] <;> omega

theorem step_fits {lim n : Nat} {d d' : VSet.Diff} {b : Bool} (h : d.Fits n) (hs : d.step lim = .ok (d', b)) :
    (b = true → d'.Fits n) ∧ d'.result.length ≤ n := by
  have h' : d.result.length + d.items.length + d.otherItems.length + 1 ≤ n := by unfold Fits at h; omega
  unfold step at hs
  cases hc : d.current with
  | none => rw [hc] at hs; cases hs; exact ⟨by simp, by omega⟩
  | some c => cases ho : d.otherCurrent with
    | none => rw [hc, ho] at hs; cases hs; exact ⟨by simp, by omega⟩
    | some o =>
      rw [hc, ho] at hs
      simp only at hs
      split at hs
      · have := nextOther_fits h'
        cases hn : d.nextOtherCurrent with
        | mk x y => rw [hn] at hs this; cases hs; exact this
      · split at hs
        · have := nextCurrent_fits true h
          cases hn : d.nextCurrent with
          | mk x y => rw [hn] at hs this; cases hs; exact this
        · cases hd : c.differenceItem lim o with
          | error e => rw [hd] at hs; cases hs
          | ok t =>
            rw [hd] at hs
            cases t with
            | empty =>
              have := nextCurrent_fits false h
              cases hn : d.nextCurrent false with
              | mk x y => rw [hn] at this; simp only [bind, Except.bind, hn] at hs; cases hs; exact this
            | item i =>
              simp only [bind, Except.bind] at hs
              split at hs
              · have := nextOther_fits (d := { d with current := some i, otherCurrent := some o }) h'
                cases hn : ({ d with current := some i, otherCurrent := some o } : VSet.Diff).nextOtherCurrent with
                | mk x y => rw [hn] at this hs; cases hs; exact this
              · have := nextCurrent_fits (d := { d with current := some i, otherCurrent := some o }) true h
                cases hn : ({ d with current := some i, otherCurrent := some o } : VSet.Diff).nextCurrent with
                | mk x y => rw [hn] at this hs; cases hs; exact this
            | union m =>
              match m, hs with
              | [], hs => cases hs
              | [_], hs => cases hs
              | _ :: _ :: _ :: _, hs => cases hs
              | [a, b], hs =>
                simp only [bind, Except.bind] at hs
                have := nextOther_fits (n := n) (d := { d with result := a :: d.result, current := some b, otherCurrent := some o }) (by
                  unfold Fits at h
                  simp only [List.length_cons]; omega)
                cases hn : ({ d with result := a :: d.result, current := some b, otherCurrent := some o } : VSet.Diff).nextOtherCurrent with
                | mk x y => rw [hn] at this hs; cases hs; exact this

theorem loop_fits {lim n : Nat} (fuel : Nat) : ∀ {d d' : VSet.Diff}, d.Fits n → loop lim fuel d = .ok d' → d'.result.length ≤ n := by
  induction fuel with
  | zero => intro d d' _ h; cases h
  | succ fuel ih =>
    intro d d' hf h
    rw [loop] at h
    cases hs : d.step lim with
    | error e => rw [hs] at h; cases h
    | ok r =>
      obtain ⟨x, b⟩ := r
      rw [hs] at h
      have := step_fits hf hs
      cases b with
      | true => exact ih (this.1 rfl) h
      | false => cases h; exact this.2

theorem compute_size {lim : Nat} {xs ys out : List Item} (h : compute lim xs ys = .ok out) : out.length ≤ xs.length + ys.length := by
  unfold compute at h
  cases hl : loop lim (xs.length + ys.length + 1) ⟨xs.tail, ys.tail, xs.head?, ys.head?, []⟩ with
  | error e => rw [hl] at h; cases h
  | ok d =>
    rw [hl] at h
    cases h
    rw [List.length_reverse]
    match xs, ys, hl with
    | [], ys, hl =>
      rw [loop] at hl
      simp only [step, List.head?_nil, bind, Except.bind] at hl
      cases hl; simp
    | x :: xs, [], hl =>
      rw [loop] at hl
      simp only [step, List.head?_nil, List.head?_cons, bind, Except.bind] at hl
      cases hl; simp
    | x :: xs, y :: ys, hl =>
      refine loop_fits _ ?_ hl
      simp only [Fits, List.tail_cons, List.length_cons, List.length_nil]; omega

end VSet.Diff

theorem difference_size {lim : Nat} {a b s : VSet} (h : a.difference lim b = .ok s) : s.size ≤ a.size + b.size := by
  cases a with
  | empty => cases h; simp [VSet.size, VSet.extract]
  | union l =>
    simp only [VSet.difference] at h
    cases hl : VSet.Diff.compute lim l b.extract with
    | error e => rw [hl] at h; cases h
    | ok m =>
      rw [hl] at h
      exact (unionOf_items_size h).trans (VSet.Diff.compute_size hl)
  | item i =>
    cases i with
    | point v =>
      simp only [VSet.difference] at h; cases h
      split <;> simp [VSet.size, VSet.extract]
    | range r =>
      cases b with
      | empty => cases h; simp [VSet.size, VSet.extract]
      | item j => simpa [VSet.size, VSet.extract] using differenceItem_size h
      | union l =>
        simp only [VSet.difference] at h
        cases hl : (Item.range r).differenceIterator lim l with
        | error e => rw [hl] at h; cases h
        | ok m =>
          rw [hl] at h
          have h1 := unionOf_items_size h
          have h2 := differenceIterator_size l _ m hl
          simp only [VSet.size, VSet.extract, List.length_cons, List.length_nil] at h1 h2 ⊢
          omega

end Verif
