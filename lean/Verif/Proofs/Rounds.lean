import Verif.Model.Rounds
import Verif.Proofs.Sizes
import Verif.Proofs.Specifiers
/-!
# Rounds of the loops of the set operations
-/

namespace Verif

namespace Run
variable {α β : Type}

@[simp] theorem result_pure (a : α) : (pure a : Run α).result = .ok a := rfl
@[simp] theorem rounds_pure (a : α) : (pure a : Run α).rounds = 0 := rfl
@[simp] theorem result_lift (x : Except PyErr α) : (lift x).result = x := rfl
@[simp] theorem rounds_lift (x : Except PyErr α) : (lift x).rounds = 0 := rfl
@[simp] theorem result_tick (x : Run α) : x.tick.result = x.result := rfl
@[simp] theorem rounds_tick (x : Run α) : x.tick.rounds = x.rounds + 1 := rfl
@[simp] theorem result_bind (x : Run α) (f : α → Run β) : (x >>= f).result = x.result >>= fun a => (f a).result := by
  show (andThen x f).result = _
  unfold andThen
  cases x.result <;> rfl
theorem rounds_bind (x : Run α) (f : α → Run β) {a : α} (h : x.result = .ok a) : (x >>= f).rounds = x.rounds + (f a).rounds := by
  show (andThen x f).rounds = _
  unfold andThen
  rw [h]
theorem rounds_bind_error (x : Run α) (f : α → Run β) {e : PyErr} (h : x.result = .error e) : (x >>= f).rounds = x.rounds := by
  show (andThen x f).rounds = _
  unfold andThen
  rw [h]
theorem rounds_bind_le (x : Run α) (f : α → Run β) {m : Nat} (h : ∀ a, x.result = .ok a → (f a).rounds ≤ m) : (x >>= f).rounds ≤ x.rounds + m := by
  cases hx : x.result with
  | error e => rw [rounds_bind_error x f hx]; omega
  | ok a => rw [rounds_bind x f hx]; have := h a hx; omega
end Run

namespace Rounds
open Run

/-! ### the results -/

theorem all_result (p : Item → Bool) : ∀ l, (all p l).result = .ok (l.all p)
  | [] => rfl
  | i :: l => by
    have := all_result p l
    rw [all, result_tick, List.all_cons]
    cases p i <;> simp [this]

theorem any_result (p : Item → Bool) : ∀ l, (any p l).result = .ok (l.any p)
  | [] => rfl
  | i :: l => by
    have := any_result p l
    rw [any, result_tick, List.any_cons]
    cases p i <;> simp [this]

theorem contains_result (s : VSet) (v : Version) : (contains s v).result = .ok (s.contains v) := by
  cases s with
  | empty => rfl
  | item i => rfl
  | union items => exact any_result _ _

theorem includesLoop_result (n : Nat) : ∀ a b : List Item, a.length + b.length ≤ n → (includesLoop a b).result = .ok (VSet.includesLoop a b) := by
  induction n with
  | zero =>
    intro a b h
    obtain rfl : b = [] := List.eq_nil_of_length_eq_zero (by omega)
    rw [includesLoop, VSet.includesLoop]
    rfl
  | succ n ih =>
    intro a b h
    cases b with
    | nil => rw [includesLoop, VSet.includesLoop]; rfl
    | cons y b => cases a with
      | nil => rw [includesLoop, VSet.includesLoop]; rfl
      | cons x a =>
        rw [includesLoop, VSet.includesLoop, result_tick]
        simp only [List.length_cons] at h
        split
        · exact ih _ _ (by simp only [List.length_cons]; omega)
        · exact ih _ _ (by simp only [List.length_cons]; omega)

theorem intersectsLoop_result (n : Nat) : ∀ a b : List Item, a.length + b.length ≤ n → (intersectsLoop a b).result = .ok (VSet.intersectsLoop a b) := by
  induction n with
  | zero =>
    intro a b h
    obtain rfl : a = [] := List.eq_nil_of_length_eq_zero (by omega)
    rw [intersectsLoop, VSet.intersectsLoop]
    rfl
  | succ n ih =>
    intro a b h
    cases a with
    | nil => rw [intersectsLoop, VSet.intersectsLoop]; rfl
    | cons x a => cases b with
      | nil => rw [intersectsLoop, VSet.intersectsLoop]; rfl
      | cons y b =>
        rw [intersectsLoop, VSet.intersectsLoop, result_tick]
        simp only [List.length_cons] at h
        split
        · rfl
        · split
          · exact ih _ _ (by simp only [List.length_cons]; omega)
          · exact ih _ _ (by simp only [List.length_cons]; omega)

theorem includes_result (a b : VSet) : (includes a b).result = .ok (a.includes b) := by
  match a, b with
  | .empty, b => rfl
  | .item (.range r), .empty => rfl
  | .item (.range r), .item j => rfl
  | .item (.range r), .union items => exact all_result _ _
  | .item (.point v), .empty => rfl
  | .item (.point v), .item j => rfl
  | .item (.point v), .union items => rfl
  | .union items, b => exact includesLoop_result _ _ _ (Nat.le_refl _)

theorem intersects_result (a b : VSet) : (intersects a b).result = .ok (a.intersects b) := by
  match a, b with
  | .empty, b => rfl
  | .item (.range r), .empty => rfl
  | .item (.range r), .item j => rfl
  | .item (.range r), .union items => exact any_result _ _
  | .item (.point v), b => exact contains_result _ _
  | .union items, b => exact intersectsLoop_result _ _ _ (Nat.le_refl _)

theorem mergeLoop_result {f : Item → Item → Run VSet} {g : Item → Item → Except PyErr VSet} (h : ∀ a b, (f a b).result = g a b) :
    ∀ (l m : List Item), (mergeLoop f m l).result = VSet.mergeLoop g m l := by
  intro l
  induction l with
  | nil => intro m; cases m <;> rfl
  | cons it l ih =>
    intro m
    cases m with
    | nil => rw [mergeLoop, VSet.mergeLoop, result_tick, ih]
    | cons last m =>
      rw [mergeLoop, VSet.mergeLoop, result_tick]
      split
      · rw [result_bind, h]
        cases g last it with
        | error e => rfl
        | ok s => cases s with
          | item i => exact ih _
          | empty => rfl
          | union _ => rfl
      · exact ih _

theorem mergeItems_result {f : Item → Item → Run VSet} {g : Item → Item → Except PyErr VSet} (h : ∀ a b, (f a b).result = g a b) (l : List Item) :
    (mergeItems f l).result = VSet.mergeItems g l := by
  unfold mergeItems VSet.mergeItems
  split
  · rfl
  · rw [result_bind, any_result]
    show (if l.any Item.isUniversal = true then (pure VSet.universal : Run VSet) else _).result = _
    split
    · rfl
    · rw [result_bind, mergeLoop_result h]
      cases VSet.mergeLoop g [] (VSet.sortItems l) with
      | error e => rfl
      | ok m =>
        match m with
        | [] => rfl
        | [i] => rfl
        | i :: j :: m => rfl

theorem unionItem_result : ∀ (lim : Nat) (a b : Item), (unionItem lim a b).result = Item.unionItem lim a b := by
  intro lim
  induction lim with
  | zero => intro a b; rfl
  | succ lim ih =>
    intro a b
    cases a with
    | range r => cases b with
      | point v =>
        simp only [unionItem, Item.unionItem]
        split
        · rfl
        · split
          · rw [result_bind, result_lift]; rfl
          · split
            · rw [result_bind, result_lift]; rfl
            · exact mergeItems_result ih _
      | range s =>
        simp only [unionItem, Item.unionItem]
        split
        · exact mergeItems_result ih _
        · rw [result_bind, result_lift]; rfl
    | point v => cases b with
      | point w =>
        simp only [unionItem, Item.unionItem]
        split
        · rfl
        · exact mergeItems_result ih _
      | range s =>
        simp only [unionItem, Item.unionItem]
        split
        · rfl
        · exact mergeItems_result ih _

theorem unionOf_result (lim : Nat) (l : List VSet) : (unionOf lim l).result = VSet.unionOf lim l := mergeItems_result (unionItem_result lim) _

theorem unionWith_result (lim : Nat) (a b : VSet) : (unionWith lim a b).result = a.unionWith lim b := by
  match a, b with
  | .empty, b => rfl
  | .item i, .empty => cases i <;> rfl
  | .item i, .item j => cases i <;> exact unionItem_result _ _ _
  | .item (.range r), .union items => exact unionOf_result _ _
  | .item (.point v), .union items =>
    show (unionWith lim (.item (.point v)) (.union items)).result = if (VSet.union items).contains v = true then _ else _
    rw [unionWith, result_bind, contains_result]
    show (if (VSet.union items).contains v = true then (pure (VSet.union items) : Run VSet) else _).result = _
    split
    · rfl
    · exact unionOf_result _ _
  | .union items, .empty => exact unionOf_result _ _
  | .union items, .item _ => exact unionOf_result _ _
  | .union items, .union _ => exact unionOf_result _ _

theorem intersectionLoop_result (n : Nat) : ∀ a b : List Item, a.length + b.length ≤ n → (intersectionLoop a b).result = VSet.intersectionLoop a b := by
  induction n with
  | zero =>
    intro a b h
    obtain rfl : a = [] := List.eq_nil_of_length_eq_zero (by omega)
    rw [intersectionLoop, VSet.intersectionLoop]
    rfl
  | succ n ih =>
    intro a b h
    cases a with
    | nil => rw [intersectionLoop, VSet.intersectionLoop]; rfl
    | cons x a => cases b with
      | nil => rw [intersectionLoop, VSet.intersectionLoop]; rfl
      | cons y b =>
        rw [intersectionLoop, VSet.intersectionLoop, result_tick, result_bind, result_lift]
        simp only [List.length_cons] at h
        congr 1
        funext s
        dsimp only
        split
        · rw [result_bind, ih _ _ (by simp only [List.length_cons]; omega)]
          congr 1
          funext rest
          cases s <;> rfl
        · rw [result_bind, ih _ _ (by simp only [List.length_cons]; omega)]
          congr 1
          funext rest
          cases s <;> rfl

theorem intersection_result (lim : Nat) (a b : VSet) : (intersection lim a b).result = a.intersection lim b := by
  have key : ∀ x y : List Item, (intersectionLoop x y >>= fun l => unionOf lim (l.map .item)).result =
      VSet.intersectionLoop x y >>= fun l => VSet.unionOf lim (l.map .item) := by
    intro x y
    rw [result_bind, intersectionLoop_result _ _ _ (Nat.le_refl _)]
    congr 1
    funext l
    exact unionOf_result _ _
  match a, b with
  | .empty, b => rfl
  | .item (.range r), .empty => rfl
  | .item (.range r), .item j => rfl
  | .item (.range r), .union items => exact key _ _
  | .item (.point v), b =>
    rw [intersection, result_bind, contains_result, VSet.intersection]
    rfl
  | .union items, b => exact key _ _

theorem differenceItem_result (lim : Nat) (a b : Item) : (differenceItem lim a b).result = a.differenceItem lim b := by
  have hm := fun l => mergeItems_result (unionItem_result lim) l
  cases a with
  | point v => cases b <;> rfl
  | range r => cases b with
    | point v =>
      simp only [differenceItem, Item.differenceItem, Item.unionOf]
      split
      · rfl
      · split
        · split
          · rfl
          · rw [result_bind, result_lift]; rfl
        · split
          · split
            · rfl
            · rw [result_bind, result_lift]; rfl
          · rw [result_bind, result_lift]
            congr 1
            funext left
            rw [result_bind, result_lift]
            congr 1
            funext right
            exact hm _
    | range s =>
      simp only [differenceItem, Item.differenceItem, Item.unionOf]
      split
      · rfl
      · rw [result_bind, result_lift]
        congr 1
        funext before
        rw [result_bind, result_lift]
        congr 1
        funext after
        cases before <;> cases after <;> first | rfl | exact hm _

theorem differenceIterator_result (lim : Nat) : ∀ (l : List Item) (cur : Item), (differenceIterator lim cur l).result = cur.differenceIterator lim l := by
  intro l
  induction l with
  | nil => intro cur; rfl
  | cons i l ih =>
    intro cur
    rw [differenceIterator, Item.differenceIterator, result_tick]
    split
    · exact ih _
    · split
      · rfl
      · rw [result_bind, differenceItem_result]
        congr 1
        funext s
        cases s with
        | empty => exact ih _
        | item j => exact ih _
        | union m => match m with
          | [] => rfl
          | [_] => rfl
          | [a, b] =>
            show (differenceIterator lim b l >>= fun r => pure (a :: r)).result = _
            rw [result_bind, ih]
            rfl
          | _ :: _ :: _ :: _ => rfl

theorem step_result (lim : Nat) (d : VSet.Diff) : (step lim d).result = d.step lim := by
  obtain ⟨items, others, cur, oth, res⟩ := d
  cases cur with
  | none => rfl
  | some cur => cases oth with
    | none => rfl
    | some oth =>
      simp only [step, VSet.Diff.step]
      split
      · rfl
      · split
        · rfl
        · rw [result_bind, differenceItem_result]
          congr 1
          funext s
          cases s with
          | empty => rfl
          | item j => dsimp only; split <;> rfl
          | union m => match m with
            | [] => rfl
            | [_] => rfl
            | [a, b] => rfl
            | _ :: _ :: _ :: _ => rfl

theorem diffLoop_result (lim : Nat) : ∀ (fuel : Nat) (d : VSet.Diff), (diffLoop lim fuel d).result = VSet.Diff.loop lim fuel d := by
  intro fuel
  induction fuel with
  | zero => intro d; rfl
  | succ fuel ih =>
    intro d
    rw [diffLoop, VSet.Diff.loop, result_tick, result_bind, step_result]
    congr 1
    funext x
    obtain ⟨d, b⟩ := x
    cases b
    · rfl
    · exact ih d

theorem compute_result (lim : Nat) (a b : List Item) : (compute lim a b).result = VSet.Diff.compute lim a b := by
  rw [compute, VSet.Diff.compute, result_bind, diffLoop_result]
  rfl

theorem difference_result (lim : Nat) (a b : VSet) : (difference lim a b).result = a.difference lim b := by
  match a, b with
  | .empty, b => rfl
  | .item (.range r), .empty => rfl
  | .item (.range r), .item j => exact differenceItem_result _ _ _
  | .item (.range r), .union items =>
    rw [difference, result_bind, differenceIterator_result, VSet.difference]
    congr 1
    funext l
    exact unionOf_result _ _
  | .item (.point v), b =>
    rw [difference, result_bind, contains_result, VSet.difference]
    rfl
  | .union items, b =>
    rw [difference, result_bind, compute_result, VSet.difference]
    congr 1
    funext l
    exact unionOf_result _ _

theorem complement_result (lim : Nat) (a : VSet) : (complement lim a).result = a.complement lim := by
  cases a with
  | empty => rfl
  | item i => exact difference_result _ _ _
  | union l => exact difference_result _ _ _

/-! ### the rounds -/

theorem all_rounds (p : Item → Bool) : ∀ l, (all p l).rounds ≤ l.length
  | [] => Nat.le_refl _
  | i :: l => by
    have := all_rounds p l
    rw [all, rounds_tick, List.length_cons]
    cases p i <;> simp [this]

theorem any_rounds (p : Item → Bool) : ∀ l, (any p l).rounds ≤ l.length
  | [] => Nat.le_refl _
  | i :: l => by
    have := any_rounds p l
    rw [any, rounds_tick, List.length_cons]
    cases p i <;> simp [this]

theorem any_rounds_eq (p : Item → Bool) : ∀ l, l.any p = false → (any p l).rounds = l.length
  | [], _ => rfl
  | i :: l, h => by
    rw [List.any_cons, Bool.or_eq_false_iff] at h
    rw [any, rounds_tick, List.length_cons, if_neg (by simp [h.1]), any_rounds_eq p l h.2]

theorem contains_rounds (s : VSet) (v : Version) : (contains s v).rounds ≤ s.size := by
  cases s with
  | empty => exact Nat.zero_le _
  | item i => exact Nat.zero_le _
  | union items => exact any_rounds _ _

theorem includesLoop_rounds (n : Nat) : ∀ a b : List Item, a.length + b.length ≤ n → (includesLoop a b).rounds ≤ a.length + b.length - 1 := by
  induction n with
  | zero =>
    intro a b h
    obtain rfl : b = [] := List.eq_nil_of_length_eq_zero (by omega)
    rw [includesLoop]
    exact Nat.zero_le _
  | succ n ih =>
    intro a b h
    cases b with
    | nil => rw [includesLoop]; exact Nat.zero_le _
    | cons y b => cases a with
      | nil => rw [includesLoop]; exact Nat.zero_le _
      | cons x a =>
        rw [includesLoop, rounds_tick]
        simp only [List.length_cons] at h ⊢
        split
        · have := ih (x :: a) b (by simp only [List.length_cons]; omega)
          simp only [List.length_cons] at this
          omega
        · have := ih a (y :: b) (by simp only [List.length_cons]; omega)
          simp only [List.length_cons] at this
          omega

theorem intersectsLoop_rounds (n : Nat) : ∀ a b : List Item, a.length + b.length ≤ n → (intersectsLoop a b).rounds ≤ a.length + b.length - 1 := by
  induction n with
  | zero =>
    intro a b h
    obtain rfl : a = [] := List.eq_nil_of_length_eq_zero (by omega)
    rw [intersectsLoop]
    exact Nat.zero_le _
  | succ n ih =>
    intro a b h
    cases a with
    | nil => rw [intersectsLoop]; exact Nat.zero_le _
    | cons x a => cases b with
      | nil => rw [intersectsLoop]; exact Nat.zero_le _
      | cons y b =>
        rw [intersectsLoop, rounds_tick]
        simp only [List.length_cons] at h ⊢
        split
        · rw [rounds_pure]; omega
        · split
          · have := ih a (y :: b) (by simp only [List.length_cons]; omega)
            simp only [List.length_cons] at this
            omega
          · have := ih (x :: a) b (by simp only [List.length_cons]; omega)
            simp only [List.length_cons] at this
            omega

theorem intersectionLoop_rounds (n : Nat) : ∀ a b : List Item, a.length + b.length ≤ n → (intersectionLoop a b).rounds ≤ a.length + b.length - 1 := by
  induction n with
  | zero =>
    intro a b h
    obtain rfl : a = [] := List.eq_nil_of_length_eq_zero (by omega)
    rw [intersectionLoop]
    exact Nat.zero_le _
  | succ n ih =>
    intro a b h
    cases a with
    | nil => rw [intersectionLoop]; exact Nat.zero_le _
    | cons x a => cases b with
      | nil => rw [intersectionLoop]; exact Nat.zero_le _
      | cons y b =>
        rw [intersectionLoop, rounds_tick]
        simp only [List.length_cons] at h ⊢
        have h1 := ih a (y :: b) (by simp only [List.length_cons]; omega)
        have h2 := ih (x :: a) b (by simp only [List.length_cons]; omega)
        simp only [List.length_cons] at h1 h2
        have key : ∀ (l : Run (List Item)) (s : VSet), (l >>= fun rest => (match s with | .item i => pure (i :: rest) | _ => pure rest : Run (List Item))).rounds ≤ l.rounds := by
          intro l s
          refine rounds_bind_le _ _ (m := 0) fun rest _ => ?_
          cases s <;> exact Nat.le_refl _
        refine Nat.le_trans (Nat.succ_le_succ (rounds_bind_le (lift (x.intersectionItem y)) _ (m := a.length + b.length) fun s _ => ?_)) ?_
        · split
          · exact (key _ s).trans (by omega)
          · exact (key _ s).trans (by omega)
        · rw [rounds_lift]
          omega

theorem includes_rounds (a b : VSet) : (includes a b).rounds ≤ a.size + b.size - 1 := by
  match a, b with
  | .empty, b => exact Nat.zero_le _
  | .item (.range r), .empty => exact Nat.zero_le _
  | .item (.range r), .item j => exact Nat.zero_le _
  | .item (.range r), .union items =>
    refine (all_rounds _ _).trans ?_
    simp only [VSet.size, VSet.extract, List.length_cons, List.length_nil]
    omega
  | .item (.point v), .empty => exact Nat.zero_le _
  | .item (.point v), .item j => exact Nat.zero_le _
  | .item (.point v), .union items => exact Nat.zero_le _
  | .union items, b => exact includesLoop_rounds _ _ _ (Nat.le_refl _)

theorem intersects_rounds (a b : VSet) : (intersects a b).rounds ≤ a.size + b.size - 1 := by
  match a, b with
  | .empty, b => exact Nat.zero_le _
  | .item (.range r), .empty => exact Nat.zero_le _
  | .item (.range r), .item j => exact Nat.zero_le _
  | .item (.range r), .union items =>
    refine (any_rounds _ _).trans ?_
    simp only [VSet.size, VSet.extract, List.length_cons, List.length_nil]
    omega
  | .item (.point v), b =>
    refine (contains_rounds _ _).trans ?_
    simp only [VSet.size, VSet.extract, List.length_cons, List.length_nil]
    omega
  | .union items, b => exact intersectsLoop_rounds _ _ _ (Nat.le_refl _)

theorem sortItems_length (l : List Item) : (VSet.sortItems l).length = l.length := by
  unfold VSet.sortItems
  exact List.length_insertionSort _ _

/-- If no round calls `union` with success, there is one round for each item. -/
theorem mergeLoop_simple (u : Item → Item → Run VSet) : ∀ (l m r : List Item), VSet.mergeLoop (Item.unionItem 0) m l = .ok r →
    mergeLoop u m l = ⟨.ok r, l.length⟩ := by
  intro l
  induction l with
  | nil => intro m r h; cases m <;> (rw [VSet.mergeLoop] at h; cases h; rfl)
  | cons it l ih =>
    intro m r h
    cases m with
    | nil =>
      rw [VSet.mergeLoop] at h
      rw [mergeLoop, ih _ _ h]
      rfl
    | cons last m =>
      rw [VSet.mergeLoop] at h
      split at h
      · cases h
      · next hc =>
        rw [mergeLoop, if_neg hc, ih _ _ h]
        rfl

/-- What `mergeItems` does after the loop. -/
def finish (merged : List Item) : Run VSet :=
  match merged with
  | [i] => pure (.item i)
  | merged => lift (VSet.mkUnion merged.reverse)

theorem finish_rounds (m : List Item) : (finish m).rounds = 0 := by
  match m with
  | [] => rfl
  | [i] => rfl
  | i :: j :: m => rfl

theorem mergeItems_eq (u : Item → Item → Run VSet) (l : List Item) : mergeItems u l =
    if l.isEmpty then pure .empty else ⟨if l.any Item.isUniversal then .ok .universal else (mergeLoop u [] (VSet.sortItems l) >>= finish).result,
      (any Item.isUniversal l).rounds + if l.any Item.isUniversal then 0 else (mergeLoop u [] (VSet.sortItems l)).rounds⟩ := by
  unfold mergeItems
  split
  · rfl
  · show andThen _ _ = _
    unfold andThen
    rw [any_result]
    dsimp only
    split
    · rfl
    · have : ∀ x : Run (List Item), (x >>= finish).rounds = x.rounds := by
        intro x
        cases hx : x.result with
        | error e => exact rounds_bind_error _ _ hx
        | ok m => rw [rounds_bind _ _ hx, finish_rounds]; rfl
      rw [← this]
      rfl

/-- The result of merging with a `union` that always fails, if there is one. -/
theorem mergeItems_simple (u : Item → Item → Run VSet) {l : List Item} {s : VSet} (h : VSet.mergeItems (Item.unionItem 0) l = .ok s) :
    (mergeItems u l).rounds ≤ 2 * l.length ∧ (l.any Item.isUniversal = false → (mergeItems u l).rounds = 2 * l.length) := by
  rw [mergeItems_eq]
  unfold VSet.mergeItems at h
  have ha := any_rounds Item.isUniversal l
  by_cases he : l.isEmpty = true
  · rw [if_pos he]
    have : l = [] := List.isEmpty_iff.1 he
    subst this
    exact ⟨Nat.zero_le _, fun _ => rfl⟩
  · rw [if_neg he] at h ⊢
    by_cases hu : l.any Item.isUniversal = true
    · simp only [hu, if_true]
      exact ⟨by omega, by simp⟩
    · rw [if_neg hu] at h
      simp only [hu]
      cases hm : VSet.mergeLoop (Item.unionItem 0) [] (VSet.sortItems l) with
      | error e => rw [hm] at h; cases h
      | ok m =>
        rw [mergeLoop_simple u _ _ _ hm, sortItems_length]
        dsimp only
        have h2 := any_rounds_eq Item.isUniversal l (by simpa using hu)
        exact ⟨by simp; omega, fun _ => by simp; omega⟩

/-- `union` of two items that returns without recursion. -/
theorem unionItem_rounds {a b : Item} {s : VSet} (h : Item.unionItem 1 a b = .ok s) (lim : Nat) : (unionItem (lim + 1) a b).rounds ≤ 4 := by
  have key : ∀ {x y : Item} {s : VSet}, VSet.mergeItems (Item.unionItem 0) [x, y] = .ok s → (mergeItems (unionItem lim) [x, y]).rounds ≤ 4 :=
    fun h => (mergeItems_simple _ h).1
  have mk : ∀ (x : Except PyErr Item), (lift x >>= fun i => (pure (VSet.item i) : Run VSet)).rounds ≤ 4 := by
    intro x
    refine (rounds_bind_le _ _ (m := 0) fun _ _ => Nat.le_refl _).trans ?_
    rw [rounds_lift]
    omega
  cases a with
  | range r => cases b with
    | point v =>
      simp only [unionItem, Item.unionItem] at h ⊢
      split
      · exact Nat.zero_le _
      · rename_i h1
        rw [if_neg h1] at h
        split
        · exact mk _
        · rename_i h2
          rw [if_neg h2] at h
          split
          · exact mk _
          · rename_i h3
            rw [if_neg h3] at h
            exact key h
    | range s =>
      simp only [unionItem, Item.unionItem] at h ⊢
      split
      · rename_i h1
        rw [if_pos h1] at h
        exact key h
      · exact mk _
  | point v => cases b with
    | point w =>
      simp only [unionItem, Item.unionItem] at h ⊢
      split
      · exact Nat.zero_le _
      · rename_i h1
        rw [if_neg h1] at h
        exact key h
    | range s =>
      simp only [unionItem, Item.unionItem] at h ⊢
      split
      · exact Nat.zero_le _
      · rename_i h1
        rw [if_neg h1] at h
        exact key h

theorem mergeLoop_rounds (lim : Nat) : ∀ (l m r : List Item), VSet.mergeLoop (Item.unionItem 1) m l = .ok r →
    (mergeLoop (unionItem (lim + 1)) m l).rounds ≤ 5 * l.length := by
  intro l
  induction l with
  | nil => intro m r h; cases m <;> exact Nat.zero_le _
  | cons it l ih =>
    intro m r h
    cases m with
    | nil =>
      rw [VSet.mergeLoop] at h
      rw [mergeLoop, rounds_tick, List.length_cons]
      have := ih _ _ h
      omega
    | cons last m =>
      rw [VSet.mergeLoop] at h
      rw [mergeLoop, rounds_tick, List.length_cons]
      split at h
      · next hc =>
        rw [if_pos hc]
        cases hu : Item.unionItem 1 last it with
        | error e => rw [hu] at h; cases h
        | ok s =>
          rw [hu] at h
          have h1 := unionItem_rounds hu lim
          have h2 : (unionItem (lim + 1) last it).result = .ok s := by
            rw [unionItem_result]
            clear h h1 ih
            induction lim with
            | zero => exact hu
            | succ n ih => exact unionItem_mono _ _ _ _ ih
          rw [rounds_bind _ _ h2]
          cases s with
          | empty => cases h
          | union _ => cases h
          | item i =>
            have := ih _ _ h
            dsimp only
            omega
      · next hc =>
        rw [if_neg hc]
        have := ih _ _ h
        omega

theorem mergeItems_rounds (lim : Nat) {l : List Item} {s : VSet} (h : VSet.mergeItems (Item.unionItem 1) l = .ok s) :
    (mergeItems (unionItem (lim + 1)) l).rounds ≤ 6 * l.length := by
  rw [mergeItems_eq]
  unfold VSet.mergeItems at h
  have ha := any_rounds Item.isUniversal l
  by_cases he : l.isEmpty = true
  · rw [if_pos he]
    exact Nat.zero_le _
  · rw [if_neg he] at h ⊢
    by_cases hu : l.any Item.isUniversal = true
    · simp only [hu, if_true]
      omega
    · rw [if_neg hu] at h
      simp only [hu]
      cases hm : VSet.mergeLoop (Item.unionItem 1) [] (VSet.sortItems l) with
      | error e => rw [hm] at h; cases h
      | ok m =>
        have := mergeLoop_rounds lim _ _ _ hm
        rw [sortItems_length] at this
        simp
        omega

/-- `union` of two items with one level of recursion. -/
theorem unionItem_rounds_two {a b : Item} {s : VSet} (h : Item.unionItem 2 a b = .ok s) (lim : Nat) : (unionItem (lim + 2) a b).rounds ≤ 12 := by
  have key : ∀ {x y : Item} {s : VSet}, VSet.mergeItems (Item.unionItem 1) [x, y] = .ok s → (mergeItems (unionItem (lim + 1)) [x, y]).rounds ≤ 12 :=
    fun h => mergeItems_rounds lim h
  have mk : ∀ (x : Except PyErr Item), (lift x >>= fun i => (pure (VSet.item i) : Run VSet)).rounds ≤ 12 := by
    intro x
    refine (rounds_bind_le _ _ (m := 0) fun _ _ => Nat.le_refl _).trans ?_
    rw [rounds_lift]
    omega
  cases a with
  | range r => cases b with
    | point v =>
      rw [unionItem]
      rw [Item.unionItem] at h
      split
      · exact Nat.zero_le _
      · rename_i h1
        rw [if_neg h1] at h
        split
        · exact mk _
        · rename_i h2
          rw [if_neg h2] at h
          split
          · exact mk _
          · rename_i h3
            rw [if_neg h3] at h
            exact key h
    | range s =>
      rw [unionItem]
      rw [Item.unionItem] at h
      dsimp only at h ⊢
      split
      · rename_i h1
        rw [if_pos h1] at h
        exact key h
      · exact mk _
  | point v => cases b with
    | point w =>
      rw [unionItem]
      rw [Item.unionItem] at h
      split
      · exact Nat.zero_le _
      · rename_i h1
        rw [if_neg h1] at h
        exact key h
    | range s =>
      rw [unionItem]
      rw [Item.unionItem] at h
      split
      · exact Nat.zero_le _
      · rename_i h1
        rw [if_neg h1] at h
        exact key h

theorem mergeItems_rounds_normal (lim k : Nat) {l : List Item} {s : VSet} (hn : AllNormal l) (h : VSet.mergeItems (Item.unionItem k) l = .ok s) :
    (mergeItems (unionItem (lim + 1)) l).rounds ≤ 6 * l.length := by
  obtain ⟨h1, h2⟩ := mergeItems_spec hn
  obtain ⟨t, ht, -⟩ := h1 fun hb => by rw [h2 hb k] at h; cases h
  exact mergeItems_rounds lim (ht 0)

theorem unionWith_rounds (lim k : Nat) {a b s : VSet} (ha : a.Normal) (hb : b.Normal) (h : a.unionWith k b = .ok s) :
    (unionWith (lim + 2) a b).rounds ≤ 7 * (a.size + b.size) := by
  have of : ∀ {x y s : VSet}, x.Normal → y.Normal → VSet.unionOf k [x, y] = .ok s → (unionOf (lim + 2) [x, y]).rounds ≤ 6 * (x.size + y.size) := by
    intro x y s hx hy h
    have e : [x, y].flatMap VSet.extract = x.extract ++ y.extract := by simp
    unfold VSet.unionOf at h
    unfold unionOf
    rw [e] at h ⊢
    refine (mergeItems_rounds_normal (lim + 1) k (hx.allNormal.append hy.allNormal) h).trans ?_
    rw [List.length_append]
    exact Nat.le_refl _
  match a, b, h with
  | .empty, b, h => exact Nat.zero_le _
  | .item i, .empty, h => cases i <;> exact Nat.zero_le _
  | .item i, .item j, h =>
    obtain ⟨h1, h2⟩ := unionWith_spec ha hb
    obtain ⟨t, ht, -⟩ := h1 fun hb => by rw [h2 hb k] at h; cases h
    have h' : Item.unionItem 2 i j = .ok t := by have := ht 0; cases i <;> exact this
    have : (unionWith (lim + 2) (.item i) (.item j)) = unionItem (lim + 2) i j := by cases i <;> rfl
    rw [this]
    refine (unionItem_rounds_two h' lim).trans ?_
    simp [VSet.size, VSet.extract]
  | .item (.range r), .union items, h =>
    refine (of (x := .union items) (y := .item (.range r)) hb ha h).trans ?_
    omega
  | .item (.point v), .union items, h =>
    have h : (if (VSet.union items).contains v = true then _ else _) = _ := h
    rw [unionWith, rounds_bind _ _ (contains_result _ _)]
    have := contains_rounds (.union items) v
    have e : (VSet.union items).size = items.length := rfl
    have e' : (VSet.item (.point v)).size = 1 := rfl
    rw [e] at this
    rw [e, e']
    split
    · rw [rounds_pure]
      omega
    · rename_i hc
      rw [if_neg hc] at h
      have := of ha hb h
      rw [e, e'] at this
      omega
  | .union items, b, h =>
    have h : VSet.unionOf k [.union items, b] = .ok s := by cases b <;> exact h
    have e : unionWith (lim + 2) (.union items) b = unionOf (lim + 2) [.union items, b] := by cases b <;> rfl
    rw [e]
    refine (of ha hb h).trans ?_
    omega

theorem unionOf_simple (lim : Nat) {l : List Item} {s : VSet} (h : VSet.unionOf 0 (l.map .item) = .ok s) : (unionOf lim (l.map .item)).rounds ≤ 2 * l.length := by
  unfold VSet.unionOf at h
  unfold unionOf
  rw [flatMap_extract_map] at h ⊢
  exact (mergeItems_simple _ h).1

theorem intersection_rounds (lim : Nat) {a b s : VSet} (h : a.intersection 0 b = .ok s) : (intersection lim a b).rounds ≤ 3 * (a.size + b.size - 1) := by
  have key : ∀ {x y : List Item} {s : VSet}, (VSet.intersectionLoop x y >>= fun l => VSet.unionOf 0 (l.map .item)) = .ok s →
      (intersectionLoop x y >>= fun l => unionOf lim (l.map .item)).rounds ≤ 3 * (x.length + y.length - 1) := by
    intro x y s h
    have h1 := intersectionLoop_rounds _ x y (Nat.le_refl _)
    have h2 := intersectionLoop_result _ x y (Nat.le_refl _)
    cases hl : VSet.intersectionLoop x y with
    | error e => rw [hl] at h; cases h
    | ok l =>
      rw [hl] at h h2
      rw [rounds_bind _ _ h2]
      have h3 := unionOf_simple lim (l := l) h
      have h4 := intersectionLoop_size _ x y l (Nat.le_refl _) hl
      omega
  match a, b, h with
  | .empty, b, h => exact Nat.zero_le _
  | .item (.range r), .empty, h => exact Nat.zero_le _
  | .item (.range r), .item j, h => exact Nat.zero_le _
  | .item (.range r), .union items, h =>
    refine (key h).trans ?_
    simp [VSet.size, VSet.extract]
  | .item (.point v), b, h =>
    rw [intersection]
    refine (rounds_bind_le _ _ (m := 0) fun _ _ => Nat.le_refl _).trans ?_
    have := contains_rounds b v
    have e' : (VSet.item (.point v)).size = 1 := rfl
    omega
  | .union items, b, h => exact key h

theorem differenceItem_rounds {a b : Item} {s : VSet} (h : a.differenceItem 0 b = .ok s) (lim : Nat) : (differenceItem lim a b).rounds ≤ 4 := by
  have key : ∀ {x y : Item} {s : VSet}, VSet.mergeItems (Item.unionItem 0) [x, y] = .ok s → (mergeItems (unionItem lim) [x, y]).rounds ≤ 4 :=
    fun h => (mergeItems_simple _ h).1
  have mk : ∀ (x : Except PyErr Item), (lift x >>= fun i => (pure (VSet.item i) : Run VSet)).rounds ≤ 4 := by
    intro x
    refine (rounds_bind_le _ _ (m := 0) fun _ _ => Nat.le_refl _).trans ?_
    rw [rounds_lift]
    omega
  cases a with
  | point v => cases b <;> exact Nat.zero_le _
  | range r => cases b with
    | point v =>
      simp only [differenceItem, Item.differenceItem, Item.unionOf] at h ⊢
      split
      · exact Nat.zero_le _
      · rename_i h1
        rw [if_neg h1] at h
        split
        · split
          · exact Nat.zero_le _
          · exact mk _
        · rename_i h2
          rw [if_neg h2] at h
          split
          · split
            · exact Nat.zero_le _
            · exact mk _
          · rename_i h3
            rw [if_neg h3] at h
            refine (rounds_bind_le _ _ (m := 4) fun left hl => ?_).trans (by rw [rounds_lift, Nat.zero_add])
            rw [result_lift] at hl
            rw [hl] at h
            refine (rounds_bind_le _ _ (m := 4) fun right hr => ?_).trans (by rw [rounds_lift, Nat.zero_add])
            rw [result_lift] at hr
            rw [show (Except.ok left >>= _ : Except PyErr VSet) = _ from rfl] at h
            rw [hr] at h
            exact key h
    | range s =>
      simp only [differenceItem, Item.differenceItem, Item.unionOf] at h ⊢
      split
      · exact Nat.zero_le _
      · rename_i h1
        rw [if_neg h1] at h
        refine (rounds_bind_le _ _ (m := 4) fun before hl => ?_).trans (by rw [rounds_lift, Nat.zero_add])
        rw [result_lift] at hl
        rw [hl] at h
        refine (rounds_bind_le _ _ (m := 4) fun after hr => ?_).trans (by rw [rounds_lift, Nat.zero_add])
        rw [result_lift] at hr
        rw [show (Except.ok before >>= _ : Except PyErr VSet) = _ from rfl] at h
        rw [hr] at h
        cases before <;> cases after <;> first | exact Nat.zero_le _ | exact key h

theorem differenceItem_any {a b : Item} {s : VSet} (h : a.differenceItem 0 b = .ok s) (lim : Nat) : a.differenceItem lim b = .ok s := by
  have key : ∀ {l : List Item} {s : VSet}, VSet.mergeItems (Item.unionItem 0) l = .ok s → VSet.mergeItems (Item.unionItem lim) l = .ok s :=
    fun h => mergeItems_mono (by intro a b s h; cases h) h
  cases a with
  | point v => cases b <;> exact h
  | range r => cases b with
    | point v =>
      simp only [Item.differenceItem, Item.unionOf] at h ⊢
      split
      · next h1 => rw [if_pos h1] at h; exact h
      · next h1 =>
        rw [if_neg h1] at h
        split
        · next h2 => rw [if_pos h2] at h; exact h
        · next h2 =>
          rw [if_neg h2] at h
          split
          · next h3 => rw [if_pos h3] at h; exact h
          · next h3 =>
            rw [if_neg h3] at h
            revert h
            cases Item.mkRange (Item.range r).min (some v) (Item.range r).includeMin false with
            | error e => exact id
            | ok left =>
              cases Item.mkRange (some v) (Item.range r).max false (Item.range r).includeMax with
              | error e => exact id
              | ok right => exact fun h => key (l := [left, right]) h
    | range t =>
      simp only [Item.differenceItem, Item.unionOf] at h ⊢
      split
      · next h1 => rw [if_pos h1] at h; exact h
      · next h1 =>
        rw [if_neg h1] at h
        revert h
        cases (Item.range r).differenceBefore (Item.range t) with
        | error e => exact id
        | ok before =>
          cases (Item.range r).differenceAfter (Item.range t) with
          | error e => exact id
          | ok after =>
            match before, after with
            | none, none => exact id
            | none, some _ => exact id
            | some _, none => exact id
            | some x, some y => exact fun h => key (l := [x, y]) h

theorem differenceIterator_rounds (lim : Nat) : ∀ (l : List Item) (cur : Item) (out : List Item),
    cur.differenceIterator 0 l = .ok out → (differenceIterator lim cur l).rounds ≤ 5 * l.length := by
  intro l
  induction l with
  | nil => intro cur out _; exact Nat.zero_le _
  | cons i l ih =>
    intro cur out h
    rw [Item.differenceIterator] at h
    rw [differenceIterator, rounds_tick, List.length_cons]
    split
    · next h1 =>
      rw [if_pos h1] at h
      have := ih _ _ h
      omega
    · next h1 =>
      rw [if_neg h1] at h
      split
      · rw [rounds_pure]; omega
      · next h2 =>
        rw [if_neg h2] at h
        cases hd : cur.differenceItem 0 i with
        | error e => rw [hd] at h; cases h
        | ok s =>
          rw [hd] at h
          have h3 := differenceItem_rounds hd lim
          have h4 : (differenceItem lim cur i).result = .ok s := by rw [differenceItem_result]; exact differenceItem_any hd lim
          rw [rounds_bind _ _ h4]
          cases s with
          | empty => have := ih _ _ h; dsimp only; omega
          | item j => have := ih _ _ h; dsimp only; omega
          | union m => match m, h with
            | [], h => cases h
            | [_], h => cases h
            | [a, b], h =>
              cases hb : b.differenceIterator 0 l with
              | error e =>
                have h : (b.differenceIterator 0 l >>= fun r => Except.ok (a :: r)) = .ok out := h
                rw [hb] at h
                cases h
              | ok r =>
                have := ih _ _ hb
                have h5 := rounds_bind_le (differenceIterator lim b l) (fun r => (pure (a :: r) : Run _)) (m := 0) fun _ _ => Nat.le_refl _
                dsimp only at h5 ⊢
                omega
            | _ :: _ :: _ :: _, h => cases h

theorem differenceIterator_any : ∀ (l : List Item) (cur : Item) (out : List Item),
    cur.differenceIterator 0 l = .ok out → ∀ lim, cur.differenceIterator lim l = .ok out := by
  intro l
  induction l with
  | nil => intro cur out h lim; exact h
  | cons i l ih =>
    intro cur out h lim
    rw [Item.differenceIterator] at h ⊢
    split
    · next h1 =>
      rw [if_pos h1] at h
      exact ih _ _ h lim
    · next h1 =>
      rw [if_neg h1] at h
      split
      · next h2 => rw [if_pos h2] at h; exact h
      · next h2 =>
        rw [if_neg h2] at h
        cases hd : cur.differenceItem 0 i with
        | error e => rw [hd] at h; cases h
        | ok s =>
          rw [hd] at h
          rw [differenceItem_any hd lim]
          cases s with
          | empty => exact ih _ _ h lim
          | item j => exact ih _ _ h lim
          | union m => match m, h with
            | [], h => cases h
            | [_], h => cases h
            | [a, b], h =>
              have h : (b.differenceIterator 0 l >>= fun r => Except.ok (a :: r)) = .ok out := h
              show (b.differenceIterator lim l >>= fun r => Except.ok (a :: r)) = .ok out
              cases hb : b.differenceIterator 0 l with
              | error e => rw [hb] at h; cases h
              | ok r => rw [hb] at h; rw [ih _ _ hb lim]; exact h
            | _ :: _ :: _ :: _, h => cases h

theorem nextOther_left (d : VSet.Diff) (h : d.nextOtherCurrent.2 = true) :
    d.nextOtherCurrent.1.items.length + d.nextOtherCurrent.1.otherItems.length + 1 = d.items.length + d.otherItems.length := by
  unfold VSet.Diff.nextOtherCurrent at h ⊢
  split at h
  · next h1 => rw [h1]; simp; omega
  · cases h

theorem nextCurrent_left (d : VSet.Diff) (b : Bool) (h : (d.nextCurrent b).2 = true) :
    (d.nextCurrent b).1.items.length + (d.nextCurrent b).1.otherItems.length + 1 = d.items.length + d.otherItems.length := by
  unfold VSet.Diff.nextCurrent at h ⊢
  dsimp only at h ⊢
  split at h
  · cases h
  · next h1 => rw [h1]; simp; omega

/-- A step that is not the last one takes an item. -/
theorem step_left {lim : Nat} {d d' : VSet.Diff} (h : d.step lim = .ok (d', true)) :
    d'.items.length + d'.otherItems.length + 1 = d.items.length + d.otherItems.length := by
  have one : ∀ {x : VSet.Diff}, (Except.ok x.nextOtherCurrent : Except PyErr _) = .ok (d', true) →
      d'.items.length + d'.otherItems.length + 1 = x.items.length + x.otherItems.length := by
    intro x h
    have h := Except.ok.inj h
    have := nextOther_left x (by rw [h])
    rw [h] at this
    exact this
  have two : ∀ {x : VSet.Diff} {b : Bool}, (Except.ok (x.nextCurrent b) : Except PyErr _) = .ok (d', true) →
      d'.items.length + d'.otherItems.length + 1 = x.items.length + x.otherItems.length := by
    intro x b h
    have h := Except.ok.inj h
    have := nextCurrent_left x b (by rw [h])
    rw [h] at this
    exact this
  obtain ⟨items, others, cur, oth, res⟩ := d
  cases cur with
  | none => cases h
  | some cur => cases oth with
    | none => cases h
    | some oth =>
      simp only [VSet.Diff.step] at h
      split at h
      · exact one h
      · split at h
        · exact two h
        · cases hd : cur.differenceItem lim oth with
          | error e => rw [hd] at h; cases h
          | ok s =>
            rw [hd] at h
            cases s with
            | empty => exact two h
            | item j =>
              have h : (if j.isHigher oth = true then _ else _) = _ := h
              split at h
              · have := one h; exact this
              · have := two h; exact this
            | union m => match m, h with
              | [], h => cases h
              | [_], h => cases h
              | [a, b], h => have := one h; exact this
              | _ :: _ :: _ :: _, h => cases h

theorem step_any {d : VSet.Diff} {x : VSet.Diff × Bool} (h : d.step 0 = .ok x) (lim : Nat) : d.step lim = .ok x ∧ (step lim d).rounds ≤ 4 := by
  obtain ⟨items, others, cur, oth, res⟩ := d
  cases cur with
  | none => exact ⟨h, Nat.zero_le _⟩
  | some cur => cases oth with
    | none => exact ⟨h, Nat.zero_le _⟩
    | some oth =>
      simp only [VSet.Diff.step, step] at h ⊢
      split
      · next h1 => rw [if_pos h1] at h; exact ⟨h, Nat.zero_le _⟩
      · next h1 =>
        rw [if_neg h1] at h
        split
        · next h2 => rw [if_pos h2] at h; exact ⟨h, Nat.zero_le _⟩
        · next h2 =>
          rw [if_neg h2] at h
          cases hd : cur.differenceItem 0 oth with
          | error e => rw [hd] at h; cases h
          | ok s =>
            rw [hd] at h
            have h3 := differenceItem_rounds hd lim
            have h4 : (differenceItem lim cur oth).result = .ok s := by rw [differenceItem_result]; exact differenceItem_any hd lim
            rw [differenceItem_any hd lim, rounds_bind _ _ h4]
            refine ⟨h, ?_⟩
            cases s with
            | empty => exact h3
            | item j => dsimp only; split <;> exact h3
            | union m => match m with
              | [] => exact h3
              | [_] => exact h3
              | [a, b] => exact h3
              | _ :: _ :: _ :: _ => exact h3

theorem diffLoop_rounds (lim : Nat) : ∀ (fuel : Nat) (d d' : VSet.Diff), VSet.Diff.loop 0 fuel d = .ok d' →
    (diffLoop lim fuel d).rounds ≤ 5 * (d.items.length + d.otherItems.length + 1) := by
  intro fuel
  induction fuel with
  | zero => intro d d' _; exact Nat.zero_le _
  | succ fuel ih =>
    intro d d' h
    rw [VSet.Diff.loop] at h
    rw [diffLoop, rounds_tick]
    cases hs : d.step 0 with
    | error e => rw [hs] at h; cases h
    | ok x =>
      rw [hs] at h
      obtain ⟨h1, h2⟩ := step_any hs lim
      rw [rounds_bind _ _ ((step_result lim d).trans h1)]
      obtain ⟨e, b⟩ := x
      cases b with
      | false => rw [rounds_pure]; omega
      | true =>
        have h3 := ih _ _ h
        have h4 := step_left hs
        dsimp only
        omega

theorem loop_any (lim : Nat) : ∀ (fuel : Nat) (d d' : VSet.Diff), VSet.Diff.loop 0 fuel d = .ok d' → VSet.Diff.loop lim fuel d = .ok d' := by
  intro fuel
  induction fuel with
  | zero => intro d d' h; exact h
  | succ fuel ih =>
    intro d d' h
    rw [VSet.Diff.loop] at h ⊢
    cases hs : d.step 0 with
    | error e => rw [hs] at h; cases h
    | ok x =>
      rw [hs] at h
      rw [(step_any hs lim).1]
      obtain ⟨e, b⟩ := x
      cases b with
      | false => exact h
      | true => exact ih _ _ h

theorem compute_any {xs ys out : List Item} (h : VSet.Diff.compute 0 xs ys = .ok out) (lim : Nat) : VSet.Diff.compute lim xs ys = .ok out := by
  unfold VSet.Diff.compute at h ⊢
  cases hl : VSet.Diff.loop 0 (xs.length + ys.length + 1) ⟨xs.tail, ys.tail, xs.head?, ys.head?, []⟩ with
  | error e => rw [hl] at h; cases h
  | ok d =>
    rw [loop_any lim _ _ _ hl]
    rw [hl] at h
    exact h

theorem compute_rounds (lim : Nat) {xs ys out : List Item} (h : VSet.Diff.compute 0 xs ys = .ok out) (hx : xs ≠ []) :
    (compute lim xs ys).rounds ≤ 5 * (xs.length + ys.length) := by
  unfold VSet.Diff.compute at h
  unfold compute
  cases hl : VSet.Diff.loop 0 (xs.length + ys.length + 1) ⟨xs.tail, ys.tail, xs.head?, ys.head?, []⟩ with
  | error e => rw [hl] at h; cases h
  | ok d =>
    have h1 := diffLoop_rounds lim _ _ _ hl
    have h2 := rounds_bind_le (diffLoop lim (xs.length + ys.length + 1) ⟨xs.tail, ys.tail, xs.head?, ys.head?, []⟩)
      (fun d => (pure d.result.reverse : Run _)) (m := 0) fun _ _ => Nat.le_refl _
    refine h2.trans (h1.trans ?_)
    have : 1 ≤ xs.length := List.length_pos_iff.2 hx
    simp only [List.length_tail]
    omega

theorem difference_rounds (lim : Nat) {a b s : VSet} (ha : ∀ items, a = .union items → items ≠ []) (h : a.difference 0 b = .ok s) :
    (difference lim a b).rounds ≤ 7 * (a.size + b.size) := by
  match a, b, h with
  | .empty, b, h => exact Nat.zero_le _
  | .item (.range r), .empty, h => exact Nat.zero_le _
  | .item (.range r), .item j, h =>
    refine (differenceItem_rounds (a := .range r) (b := j) h lim).trans ?_
    simp [VSet.size, VSet.extract]
  | .item (.range r), .union items, h =>
    have h : ((Item.range r).differenceIterator 0 items >>= fun l => VSet.unionOf 0 (l.map .item)) = .ok s := h
    cases hd : (Item.range r).differenceIterator 0 items with
    | error e => rw [hd] at h; cases h
    | ok out =>
      rw [hd] at h
      have h1 := differenceIterator_rounds lim items _ _ hd
      have h2 := unionOf_simple lim (l := out) h
      have h3 := differenceIterator_size _ _ _ hd
      have h4 : (differenceIterator lim (.range r) items).result = .ok out := by
        rw [differenceIterator_result]
        exact differenceIterator_any _ _ _ hd lim
      have e : (VSet.union items).size = items.length := rfl
      have e' : (VSet.item (.range r)).size = 1 := rfl
      rw [difference, rounds_bind _ _ h4, e, e']
      omega
  | .item (.point v), b, h =>
    rw [difference]
    refine (rounds_bind_le _ _ (m := 0) fun _ _ => Nat.le_refl _).trans ?_
    have := contains_rounds b v
    omega
  | .union items, b, h =>
    have h : (VSet.Diff.compute 0 items b.extract >>= fun l => VSet.unionOf 0 (l.map .item)) = .ok s := h
    cases hd : VSet.Diff.compute 0 items b.extract with
    | error e => rw [hd] at h; cases h
    | ok out =>
      rw [hd] at h
      have h1 := compute_rounds lim hd (ha _ rfl)
      have h2 := unionOf_simple lim (l := out) h
      have h3 := VSet.Diff.compute_size hd
      have h4 : (compute lim items b.extract).result = .ok out := by
        rw [compute_result]
        exact compute_any hd lim
      have e : (VSet.union items).size = items.length := rfl
      have e' : b.size = b.extract.length := rfl
      rw [difference, rounds_bind _ _ h4, e, e']
      omega

mutual
theorem toSet_result (lim : Nat) : ∀ s : Specifier, (toSet lim s).result = s.toSet lim
  | .one _ => rfl
  | .never => rfl
  | .always => rfl
  | .all [] => rfl
  | .all (s :: rest) => by
    rw [toSet, Specifier.toSet, result_bind, toSet_result lim s]
    congr 1
    funext x
    exact reduceAll_result lim rest x
  | .any [] => rfl
  | .any (s :: rest) => by
    rw [toSet, Specifier.toSet, result_bind, toSet_result lim s]
    congr 1
    funext x
    exact reduceAny_result lim rest x
theorem reduceAll_result (lim : Nat) : ∀ (l : List Specifier) (acc : VSet), (reduceAll lim acc l).result = Specifier.reduceAll lim acc l
  | [], _ => rfl
  | s :: rest, acc => by
    rw [reduceAll, Specifier.reduceAll, result_bind, toSet_result lim s]
    congr 1
    funext x
    rw [result_bind, intersection_result]
    congr 1
    funext y
    exact reduceAll_result lim rest y
theorem reduceAny_result (lim : Nat) : ∀ (l : List Specifier) (acc : VSet), (reduceAny lim acc l).result = Specifier.reduceAny lim acc l
  | [], _ => rfl
  | s :: rest, acc => by
    rw [reduceAny, Specifier.reduceAny, result_bind, toSet_result lim s]
    congr 1
    funext x
    rw [result_bind, unionWith_result]
    congr 1
    funext y
    exact reduceAny_result lim rest y
end

/-- Adding a version above those of a set of versions. -/
theorem add_point (lim : Nat) {l : List Version} {v : Version} (hl : l ≠ []) (hg : Gaps ((l ++ [v]).map Item.point)) :
    unionWith (lim + 1) (ofItems (l.map .point)) (.item (.point v)) = ⟨.ok (ofItems ((l ++ [v]).map .point)), 2 * (l.length + 1)⟩ := by
  have hn : AllNormal ((l ++ [v]).map Item.point) := by
    intro i hi
    obtain ⟨w, -, rfl⟩ := List.mem_map.1 hi
    trivial
  have hu : ((l ++ [v]).map Item.point).any Item.isUniversal = false := by
    rw [List.any_eq_false]
    intro i hi
    obtain ⟨w, -, rfl⟩ := List.mem_map.1 hi
    exact Bool.false_ne_true
  have hm := mergeItems_gaps hn hg
  have hr := (mergeItems_simple (unionItem (lim + 1)) (hm _)).2 hu
  have hr0 := (mergeItems_simple (unionItem lim) (hm _)).2 hu
  have hres : ∀ k, (mergeItems (unionItem k) ((l ++ [v]).map Item.point)).result = .ok (ofItems ((l ++ [v]).map .point)) := by
    intro k
    rw [mergeItems_result (unionItem_result k)]
    exact hm _
  have ext : ∀ (x y : Run VSet), x.result = y.result → x.rounds = y.rounds → x = y := by
    rintro ⟨a, b⟩ ⟨c, d⟩ h1 h2
    dsimp only at h1 h2
    rw [h1, h2]
  have hlen : ((l ++ [v]).map Item.point).length = l.length + 1 := by simp
  rw [hlen] at hr hr0
  match l, hl with
  | [w], _ =>
    have hc : ¬ (Item.point w).contains v = true := by
      have hlt : (Item.point w).hi < cut v := (List.pairwise_cons.1 hg).1 (.point v) (by simp)
      rw [contains_iff]
      rintro ⟨h1, h2⟩
      order
    show (if (Item.point w).contains v then _ else mergeItems (unionItem lim) [.point w, .point v]) = _
    rw [if_neg hc]
    exact ext _ _ (hres lim) hr0
  | w :: x :: l, _ =>
    show mergeItems (unionItem (lim + 1)) ([VSet.union ((w :: x :: l).map .point), .item (.point v)].flatMap VSet.extract) = _
    have e : [VSet.union ((w :: x :: l).map .point), .item (.point v)].flatMap VSet.extract = (w :: x :: l ++ [v]).map .point := by
      simp [VSet.extract]
    rw [e]
    exact ext _ _ (hres _) hr

/-- Converting a specifier with the given versions as alternatives. -/
theorem reduceAny_points (lim : Nat) : ∀ (l done : List Version), done ≠ [] → Gaps ((done ++ l).map Item.point) →
    (reduceAny (lim + 1) (ofItems (done.map .point)) (l.map fun v => .one ⟨.doubleEqual, v⟩)).result = .ok (ofItems ((done ++ l).map .point)) ∧
    (reduceAny (lim + 1) (ofItems (done.map .point)) (l.map fun v => .one ⟨.doubleEqual, v⟩)).rounds + done.length * (done.length + 1) =
      (done.length + l.length) * (done.length + l.length + 1) := by
  intro l
  induction l with
  | nil =>
    intro done _ _
    rw [List.append_nil]
    refine ⟨rfl, ?_⟩
    show 0 + _ = _
    simp
  | cons v l ih =>
    intro done hd hg
    have e : done ++ v :: l = (done ++ [v]) ++ l := by simp
    rw [e] at hg
    have hg' : Gaps ((done ++ [v]).map Item.point) := by
      rw [List.map_append] at hg
      exact (List.pairwise_append.1 hg).1
    obtain ⟨h1, h2⟩ := ih (done ++ [v]) (by simp) hg
    have hp := add_point lim hd hg'
    rw [List.map_cons, reduceAny, result_bind]
    have ht : (toSet (lim + 1) (.one ⟨.doubleEqual, v⟩)) = ⟨.ok (.item (.point v)), 0⟩ := rfl
    rw [ht, rounds_bind _ _ rfl, hp, rounds_bind _ _ rfl]
    constructor
    · rw [e, ← h1]
      show (_ >>= _ : Run VSet).result = _
      rw [result_bind]
      show Except.bind (result (unionWith _ _ _)) _ = _
      rw [hp]
      rfl
    · have hl : (done ++ [v]).length = done.length + 1 := by simp
      rw [hl] at h2
      rw [List.length_cons]
      dsimp only
      have : done.length + 1 + l.length = done.length + (l.length + 1) := by omega
      rw [this] at h2
      rw [← h2]
      have h3 : (done.length + 1) * (done.length + 1 + 1) = done.length * (done.length + 1) + 2 * (done.length + 1) := by
        rw [Nat.mul_comm, ← Nat.add_mul]
      omega

theorem points_rounds (lim : Nat) {l : List Version} (hl : l ≠ []) (hg : Gaps (l.map Item.point)) :
    (toSet (lim + 1) (.any (l.map fun v => .one ⟨.doubleEqual, v⟩))).result = .ok (ofItems (l.map .point)) ∧
    (toSet (lim + 1) (.any (l.map fun v => .one ⟨.doubleEqual, v⟩))).rounds + 2 = l.length * (l.length + 1) := by
  match l, hl with
  | v :: l, _ =>
    obtain ⟨h1, h2⟩ := reduceAny_points lim l [v] (by simp) hg
    have ht : (toSet (lim + 1) (.one ⟨.doubleEqual, v⟩)) = ⟨.ok (.item (.point v)), 0⟩ := rfl
    rw [List.map_cons, toSet, ht, result_bind, rounds_bind _ _ rfl]
    refine ⟨h1, ?_⟩
    have e : (v :: l).length = [v].length + l.length := by simp [Nat.add_comm]
    rw [e, ← h2]
    show 0 + (reduceAny (lim + 1) (ofItems [.point v]) _).rounds + 2 = _
    rw [Nat.zero_add]
    rfl

/-! ### Conversions -/

theorem complement_item_size {lim : Nat} {i : Item} {x : VSet} (h : (VSet.item i).complement lim = .ok x) : x.size ≤ 2 :=
  differenceItem_size (a := universalItem) (b := i) h

theorem operator_size {lim : Nat} {o : Operator} {x : VSet} (h : o.toSet lim = .ok x) : x.size ≤ 2 := by
  have one : ∀ {y : Except PyErr Item} {x : VSet}, (y >>= fun i => (.ok (.item i) : Except PyErr VSet)) = .ok x → ∃ i, x = .item i := by
    intro y x h
    cases y with
    | error e => cases h
    | ok i => cases h; exact ⟨i, rfl⟩
  have one' : ∀ {y : Except PyErr Version} {f : Version → Except PyErr Item} {x : VSet},
      (y >>= fun v => f v >>= fun i => (.ok (.item i) : Except PyErr VSet)) = .ok x → ∃ i, x = .item i := by
    intro y f x h
    cases y with
    | error e => cases h
    | ok v => exact one (y := f v) h
  have fin : ∀ {x : VSet}, (∃ i, x = .item i) → x.size ≤ 2 := by
    rintro x ⟨i, rfl⟩
    exact Nat.le_succ 1
  have wild : ∀ {v : Version} {x : VSet}, v.translateWildcardEqual = .ok x → ∃ i, x = .item i := by
    intro v x h
    unfold Version.translateWildcardEqual at h
    cases hn : v.nextWildcardBreaking with
    | error e => rw [hn] at h; cases h
    | ok m =>
      rw [hn] at h
      cases m with
      | none => exact one (y := Item.mkRange none none false false) h
      | some w => exact one (y := Item.mkRange (some v) (some w) true false) h
  obtain ⟨t, v⟩ := o
  cases t with
  | tildeEqual => exact fin (one' (y := v.nextTildeEqualBreaking) (f := fun w => Item.mkRange (some v) (some w) true false) h)
  | doubleEqual => cases h; exact fin ⟨_, rfl⟩
  | notEqual =>
    have h : ((Version.translateEqual v).complement lim >>= fun y => match y with
      | .union items => .ok (.union items)
      | _ => .error .internalError) = .ok x := h
    cases hc : (Version.translateEqual v).complement lim with
    | error e => rw [hc] at h; cases h
    | ok y =>
      rw [hc] at h
      have := complement_item_size hc
      cases y with
      | union items => cases h; exact this
      | empty => cases h
      | item i => cases h
  | less => exact fin (one (y := Item.mkRange none (some v) false false) h)
  | lessOrEqual => exact fin (one (y := Item.mkRange none (some v) false true) h)
  | greater => exact fin (one (y := Item.mkRange (some v) none false false) h)
  | greaterOrEqual => exact fin (one (y := Item.mkRange (some v) none true false) h)
  | caret => exact fin (one' (y := v.nextCaretBreaking) (f := fun w => Item.mkRange (some v) (some w) true false) h)
  | equal => cases h; exact fin ⟨_, rfl⟩
  | tilde => exact fin (one' (y := v.nextTildeBreaking) (f := fun w => Item.mkRange (some v) (some w) true false) h)
  | wildcardDoubleEqual => exact fin (wild h)
  | wildcardEqual => exact fin (wild h)
  | wildcardNotEqual =>
    have h : (v.translateWildcardEqual >>= fun z => z.complement lim >>= fun y => match y with
      | .empty => .ok .empty
      | .union items => .ok (.union items)
      | .item _ => .error .internalError) = .ok x := h
    cases hw : v.translateWildcardEqual with
    | error e => rw [hw] at h; cases h
    | ok z =>
      rw [hw] at h
      obtain ⟨i, rfl⟩ := wild hw
      have h : ((VSet.item i).complement lim >>= fun y => match y with
        | .empty => .ok .empty
        | .union items => .ok (.union items)
        | .item _ => .error .internalError) = .ok x := h
      cases hc : (VSet.item i).complement lim with
      | error e => rw [hc] at h; cases h
      | ok y =>
        rw [hc] at h
        have := complement_item_size hc
        cases y with
        | union items => cases h; exact this
        | empty => cases h; exact this
        | item i => cases h

end Rounds

mutual
/-- How many specifiers without parts a specifier is made of. -/
def Specifier.leaves : Specifier → Nat
  | .one _ => 1
  | .never => 1
  | .always => 1
  | .all l => Specifier.leavesOf l
  | .any l => Specifier.leavesOf l
def Specifier.leavesOf : List Specifier → Nat
  | [] => 0
  | s :: l => s.leaves + Specifier.leavesOf l
end

namespace Rounds
open Run

/-- What is to be shown of a specifier. -/
def Quadratic (lim : Nat) (s : Specifier) : Prop :=
  1 ≤ s.leaves ∧ ∀ x, s.toSet (lim + 2) = .ok x → x.size ≤ 2 * s.leaves ∧ (toSet (lim + 2) s).rounds ≤ 14 * (s.leaves * s.leaves)

theorem square_add {m n r q t : Nat} (hm : 1 ≤ m) (hn : 1 ≤ n) (h1 : r ≤ 14 * (m * m)) (h2 : q ≤ 14 * (n * n)) (h3 : t ≤ 14 * (m + n)) :
    r + q + t ≤ 14 * ((m + n) * (m + n)) := by
  have e : (m + n) * (m + n) = m * m + n * n + 2 * (m * n) := by
    rw [Nat.add_mul, Nat.mul_add, Nat.mul_add, Nat.mul_comm n m]
    omega
  have h4 : m ≤ m * n := Nat.le_mul_of_pos_right _ hn
  have h5 : n ≤ m * n := Nat.le_mul_of_pos_left _ hm
  omega

theorem reduce_rounds (lim : Nat) : ∀ (l : List Specifier), (∀ s ∈ l, s.Valid) → (∀ s ∈ l, Quadratic lim s) → ∀ (acc x : VSet) (m r : Nat), acc.Normal →
    1 ≤ m → acc.size ≤ 2 * m → r ≤ 14 * (m * m) →
    (Specifier.reduceAny (lim + 2) acc l = .ok x → x.size ≤ 2 * (m + Specifier.leavesOf l) ∧
      r + (reduceAny (lim + 2) acc l).rounds ≤ 14 * ((m + Specifier.leavesOf l) * (m + Specifier.leavesOf l))) ∧
    (Specifier.reduceAll (lim + 2) acc l = .ok x → x.size ≤ 2 * (m + Specifier.leavesOf l) ∧
      r + (reduceAll (lim + 2) acc l).rounds ≤ 14 * ((m + Specifier.leavesOf l) * (m + Specifier.leavesOf l))) := by
  intro l
  induction l with
  | nil =>
    intro _ _ acc x m r _ _ hs hr
    constructor
    · intro h
      rw [Specifier.reduceAny] at h
      cases h
      exact ⟨hs, hr⟩
    · intro h
      rw [Specifier.reduceAll] at h
      cases h
      exact ⟨hs, hr⟩
  | cons s l ih =>
    intro hv hq acc x m r ha hm hs hr
    obtain ⟨q1, q2⟩ := hq s (by simp)
    have ih := ih (fun t ht => hv t (by simp [ht])) (fun t ht => hq t (by simp [ht]))
    rw [Specifier.leavesOf, ← Nat.add_assoc]
    constructor
    · intro h
      rw [Specifier.reduceAny] at h
      rw [reduceAny]
      cases ht : s.toSet (lim + 2) with
      | error e => rw [ht] at h; cases h
      | ok t =>
        rw [ht] at h
        have h : (acc.unionWith (lim + 2) t >>= fun y => Specifier.reduceAny (lim + 2) y l) = .ok x := h
        obtain ⟨t1, t2⟩ := q2 _ ht
        have tn := (Specifier.toSet_means (hv s (by simp)) _ _ ht).1
        cases hu : acc.unionWith (lim + 2) t with
        | error e => rw [hu] at h; cases h
        | ok y =>
          rw [hu] at h
          have hy : y.Normal := by
            obtain ⟨g1, g2⟩ := unionWith_spec ha tn
            obtain ⟨z, hz, hn, -⟩ := g1 fun hb => by rw [g2 hb _] at hu; cases hu
            rw [hz lim] at hu
            cases hu
            exact hn
          have h1 := unionWith_rounds lim _ ha tn hu
          have h2 := unionWith_size hu
          have h3 := square_add hm q1 hr t2 (show (unionWith (lim + 2) acc t).rounds ≤ 14 * (m + s.leaves) by omega)
          obtain ⟨i1, i2⟩ := (ih y x (m + s.leaves) _ hy (by omega) (by omega) h3).1 h
          refine ⟨i1, ?_⟩
          rw [rounds_bind _ _ ((toSet_result _ _).trans ht), rounds_bind _ _ ((unionWith_result _ _ _).trans hu)]
          omega
    · intro h
      rw [Specifier.reduceAll] at h
      rw [reduceAll]
      cases ht : s.toSet (lim + 2) with
      | error e => rw [ht] at h; cases h
      | ok t =>
        rw [ht] at h
        have h : (acc.intersection (lim + 2) t >>= fun y => Specifier.reduceAll (lim + 2) y l) = .ok x := h
        obtain ⟨t1, t2⟩ := q2 _ ht
        have tn := (Specifier.toSet_means (hv s (by simp)) _ _ ht).1
        obtain ⟨y, hz, hy, -⟩ := intersection_spec ha tn
        have hu := hz (lim + 2)
        rw [hu] at h
        have h1 := intersection_rounds (lim + 2) (hz 0)
        have h2 := intersection_size hu
        have h3 := square_add hm q1 hr t2 (show (intersection (lim + 2) acc t).rounds ≤ 14 * (m + s.leaves) by omega)
        obtain ⟨i1, i2⟩ := (ih y x (m + s.leaves) _ hy (by omega) (by omega) h3).2 h
        refine ⟨i1, ?_⟩
        rw [rounds_bind _ _ ((toSet_result _ _).trans ht), rounds_bind _ _ ((intersection_result _ _ _).trans hu)]
        omega

theorem toSet_quadratic (lim : Nat) {s : Specifier} (hs : s.Valid) : Quadratic lim s := by
  have one : ∀ {s : Specifier}, s.leaves = 1 → (toSet (lim + 2) s).rounds = 0 → (∀ x, s.toSet (lim + 2) = .ok x → x.size ≤ 2) → Quadratic lim s := by
    intro s h1 h2 h3
    refine ⟨by omega, fun x hx => ⟨?_, by rw [h2]; exact Nat.zero_le _⟩⟩
    have := h3 x hx
    omega
  induction hs with
  | never => exact one rfl rfl fun x h => by cases h; exact Nat.zero_le _
  | always => exact one rfl rfl fun x h => by cases h; exact Nat.le_succ 1
  | one hv ht => exact one rfl rfl fun x h => operator_size h
  | @any l h1 h2 ih =>
    match l, h1, h2, ih with
    | [], h1, h2, ih => simp at h1
    | s :: l, h1, h2, ih =>
      obtain ⟨q1, q2⟩ := ih s (by simp)
      refine ⟨by rw [Specifier.leaves, Specifier.leavesOf]; omega, fun x h => ?_⟩
      rw [Specifier.toSet] at h
      rw [toSet]
      cases ht : s.toSet (lim + 2) with
      | error e => rw [ht] at h; cases h
      | ok t =>
        rw [ht] at h
        obtain ⟨t1, t2⟩ := q2 _ ht
        obtain ⟨i1, i2⟩ := (reduce_rounds lim l (fun u hu => h2 u (by simp [hu])) (fun u hu => ih u (by simp [hu])) t x s.leaves _
          (Specifier.toSet_means (h2 s (by simp)) _ _ ht).1 q1 t1 t2).1 h
        rw [rounds_bind _ _ ((toSet_result _ _).trans ht)]
        exact ⟨i1, i2⟩
  | @all l h1 h2 ih =>
    match l, h1, h2, ih with
    | [], h1, h2, ih => simp at h1
    | s :: l, h1, h2, ih =>
      obtain ⟨q1, q2⟩ := ih s (by simp)
      refine ⟨by rw [Specifier.leaves, Specifier.leavesOf]; omega, fun x h => ?_⟩
      rw [Specifier.toSet] at h
      rw [toSet]
      cases ht : s.toSet (lim + 2) with
      | error e => rw [ht] at h; cases h
      | ok t =>
        rw [ht] at h
        obtain ⟨t1, t2⟩ := q2 _ ht
        obtain ⟨i1, i2⟩ := (reduce_rounds lim l (fun u hu => h2 u (by simp [hu])) (fun u hu => ih u (by simp [hu])) t x s.leaves _
          (Specifier.toSet_means (h2 s (by simp)) _ _ ht).1 q1 t1 t2).2 h
        rw [rounds_bind _ _ ((toSet_result _ _).trans ht)]
        exact ⟨i1, i2⟩

end Rounds

end Verif
