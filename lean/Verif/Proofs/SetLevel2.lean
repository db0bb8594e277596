import Verif.Proofs.SetLevel
/-!
# Recursion limit, clashes and ends
-/
set_option linter.unusedSimpArgs false

namespace Verif
open scoped Verif

theorem has_iff (s : VSet) (i : Item) : s.Has i ↔ i ∈ s.extract := by
  cases s <;> simp [VSet.Has, VSet.extract]

/-! ### A higher recursion limit never changes a result -/

theorem mergeLoop_mono {f g : Item → Item → Except PyErr VSet} (h : ∀ a b s, f a b = .ok s → g a b = .ok s)
    (l : List Item) : ∀ (m : List Item) (r : List Item), VSet.mergeLoop f m l = .ok r → VSet.mergeLoop g m l = .ok r := by
  induction l with
  | nil => intro m r; cases m <;> simp [VSet.mergeLoop]
  | cons i l ih =>
    intro m r
    cases m with
    | nil => simp only [VSet.mergeLoop]; exact ih _ _
    | cons x m =>
      simp only [VSet.mergeLoop]
      split
      · cases hf : f x i with
        | error e => simp [bind, Except.bind]
        | ok s =>
          rw [h _ _ _ hf]
          simp only [bind, Except.bind]
          cases s with
          | empty => simp
          | union _ => simp
          | item j => exact ih _ _
      · exact ih _ _

theorem mergeItems_mono {f g : Item → Item → Except PyErr VSet} (h : ∀ a b s, f a b = .ok s → g a b = .ok s)
    {l : List Item} {s : VSet} : VSet.mergeItems f l = .ok s → VSet.mergeItems g l = .ok s := by
  unfold VSet.mergeItems
  split
  · exact id
  · split
    · exact id
    · cases hf : VSet.mergeLoop f [] (VSet.sortItems l) with
      | error e => simp [bind, Except.bind]
      | ok m => rw [mergeLoop_mono h _ _ _ hf]; exact id

theorem unionItem_mono (lim : Nat) : ∀ (a b : Item) (s : VSet), Item.unionItem lim a b = .ok s →
    Item.unionItem (lim + 1) a b = .ok s := by
  induction lim with
  | zero => intro a b s h; simp [Item.unionItem] at h
  | succ lim ih =>
    intro a b s h
    cases a <;> cases b <;> simp only [Item.unionItem] at h ⊢ <;> (repeat' split at h) <;> simp_all only [if_true, if_false, Bool.false_eq_true] <;>
      first | exact h | exact mergeItems_mono ih h

theorem unionOf_mono {lim : Nat} {l : List VSet} {s : VSet} (h : VSet.unionOf lim l = .ok s) :
    VSet.unionOf (lim + 1) l = .ok s := mergeItems_mono (unionItem_mono lim) h

theorem unionWith_mono {lim : Nat} {a b s : VSet} (h : a.unionWith lim b = .ok s) : a.unionWith (lim + 1) b = .ok s := by
  cases a with
  | empty => exact h
  | item i => cases b with
    | empty => simpa [VSet.unionWith] using h
    | item j => exact unionItem_mono _ _ _ _ h
    | union items => cases i with
      | range r => exact unionOf_mono h
      | point v =>
        simp only [VSet.unionWith] at h ⊢
        split at h
        · rw [if_pos ‹_›]; exact h
        · rw [if_neg ‹_›]; exact unionOf_mono h
  | union items => exact unionOf_mono h

theorem unionWith_ok {lim : Nat} {a b s : VSet} (ha : a.Normal) (hb : b.Normal) (h : a.unionWith lim b = .ok s) :
    s.Normal ∧ ∀ c, s.Cov c ↔ a.Cov c ∨ b.Cov c := by
  obtain ⟨h1, h2⟩ := unionWith_spec ha hb
  by_cases hbad : UnionBad a b
  · rw [h2 hbad] at h; cases h
  · obtain ⟨t, t1, t2, t3⟩ := h1 hbad
    have := unionWith_mono (unionWith_mono h)
    rw [t1] at this
    cases this
    exact ⟨t2, t3⟩

/-! ### Clashes -/

theorem isPt_iff (i : Item) : i.IsPt ↔ ∃ v, i = .point v := by cases i <;> simp [Item.IsPt]

theorem clash_iff_bad {l : List Item} (hn : AllNormal l) : Clash (· ∈ l) ↔ Bad l := by
  constructor
  · rintro ⟨p, r, hp, hr, ⟨m, m1, m2, m3⟩, hno⟩
    refine ⟨.point p, hp, trivial, ⟨.range r, hr, fun h => h, ?_⟩, ?_⟩
    · rw [lo_eq_loOf, point_hi]
      simp only [Item.min, Item.includeMin, Item.fields, m1, m3, loOf, Bool.not_false, cutAt_eq, and_true]
      exact (veq_iff _ _).1 m2
    · intro s hs hsr
      cases s with
      | point v => exact absurd trivial hsr
      | range s =>
        rintro ⟨h1, h2⟩
        obtain ⟨h3, h4⟩ := hno s hs
        rw [mem_iff_cut] at h3
        rcases h2.lt_or_eq with h2 | h2
        · exact h3 ⟨h1, h2⟩
        · obtain ⟨w, w1, w2, -⟩ := hi_range_eq_cut (hn _ hs) h2.symm
          exact h4 w w1 ((veq_iff _ _).2 w2)
  · rintro ⟨p, hp, hpp, ⟨r, hr, hrr, hlo⟩, hno⟩
    cases p with
    | range _ => exact hpp.elim
    | point p => cases r with
      | point _ => exact absurd trivial hrr
      | range r =>
        obtain ⟨w, w1, w2, w3⟩ := lo_range_eq_cut (hn _ hr) hlo
        refine ⟨p, r, hp, hr, ⟨w, w1, (veq_iff _ _).2 w2, w3⟩, ?_⟩
        intro s hs
        have := hno _ hs (fun h => h)
        constructor
        · rw [mem_iff_cut]
          rintro ⟨h1, h2⟩
          exact this ⟨h1, h2.le⟩
        · intro m hm heq
          have hk := (veq_iff _ _).1 heq
          have hhi : (Item.range s).hi = cutAt p s.includeMax := by
            rw [hi_eq_hiOf]
            simp only [Item.max, Item.includeMax, Item.fields, hm, hiOf, cutAt_eq, and_true]; exact hk
          have hl := (hn _ hs).lo_lt_hi
          apply this
          rw [hhi] at hl ⊢
          rw [point_lo]
          constructor
          · refine (lt_after_iff _ p).1 (lt_of_lt_of_le hl ?_)
            rw [cutAt_le]; exact .inr ⟨rfl, fun _ => rfl⟩
          · rw [cutAt_le]; exact .inr ⟨rfl, by simp⟩

theorem clash_congr {p q : Item → Prop} (h : ∀ i, p i ↔ q i) : Clash p ↔ Clash q := by
  have : p = q := by funext i; exact propext (h i)
  rw [this]

theorem clash_union_iff {a b : VSet} (ha : a.Normal) (hb : b.Normal) :
    Clash (fun i => a.Has i ∨ b.Has i) ↔ Bad (a.extract ++ b.extract) := by
  rw [← clash_iff_bad (ha.allNormal.append hb.allNormal)]
  exact clash_congr (fun i => by rw [has_iff, has_iff, List.mem_append])

/-! ### The order of items in terms of their ends -/

theorem startsBefore_iff (a b : Item) : a.StartsBefore b ↔ a.lo < b.lo := by
  unfold Item.StartsBefore Item.lo loOf
  cases hm : a.min <;> cases hn : b.min
  · simp
  · simp [bot_lt_cutAt]
  · simp [not_lt_of_gt (bot_lt_cutAt _ _)]
  · simp [cutAt_lt, vlt_iff, veq_iff]

theorem endsBefore_iff (a b : Item) : a.EndsBefore b ↔ a.hi < b.hi := by
  unfold Item.EndsBefore Item.hi hiOf
  cases hm : a.max <;> cases hn : b.max
  · simp
  · simp [not_lt_of_gt (cutAt_lt_top _ _)]
  · simp [cutAt_lt_top]
  · simp [cutAt_lt, vlt_iff, veq_iff]

/-! ### The ends of a result are ends of the operands -/

/-- Every end of the item satisfies `P`. -/
def Item.Ends (P : Version → Prop) (i : Item) : Prop := (∀ v, i.min = some v → P v) ∧ ∀ v, i.max = some v → P v

def AllEnds (P : Version → Prop) (l : List Item) : Prop := ∀ i ∈ l, i.Ends P

variable {P : Version → Prop}

theorem allEnds_cons {i : Item} {l : List Item} : AllEnds P (i :: l) ↔ i.Ends P ∧ AllEnds P l := by simp [AllEnds]
theorem allEnds_nil : AllEnds P [] := by simp [AllEnds]
theorem allEnds_append {l m : List Item} : AllEnds P (l ++ m) ↔ AllEnds P l ∧ AllEnds P m := by
  simp only [AllEnds, List.mem_append, or_imp, forall_and]

theorem ends_point {v : Version} : (Item.point v).Ends P ↔ P v := by
  simp [Item.Ends, Item.min, Item.max, Item.fields]

theorem ends_mkRange {mn mx : Option Version} {a b : Bool} {i : Item} (h : Item.mkRange mn mx a b = .ok i)
    (h1 : ∀ v, mn = some v → P v) (h2 : ∀ v, mx = some v → P v) : i.Ends P := by
  unfold Item.mkRange at h
  simp only at h
  split at h <;> try cases h
  split at h <;> try cases h
  split at h <;> cases h
  exact ⟨h1, h2⟩

theorem universal_item_ends : universalItem.Ends P := by
  constructor <;> (intro v h; cases h)

theorem mergeLoop_ends {f : Item → Item → Except PyErr VSet}
    (hf : ∀ a b s, a.Ends P → b.Ends P → f a b = .ok s → AllEnds P s.extract) (l : List Item) :
    ∀ m r, AllEnds P m → AllEnds P l → VSet.mergeLoop f m l = .ok r → AllEnds P r := by
  induction l with
  | nil => intro m r hm _ h; cases m <;> simp only [VSet.mergeLoop, Except.ok.injEq] at h <;> rw [← h]; exact hm; exact hm
  | cons i l ih =>
    intro m r hm hl h
    rw [allEnds_cons] at hl
    cases m with
    | nil => simp only [VSet.mergeLoop] at h; exact ih _ _ (by rw [allEnds_cons]; exact ⟨hl.1, allEnds_nil⟩) hl.2 h
    | cons x m =>
      simp only [VSet.mergeLoop] at h
      rw [allEnds_cons] at hm
      split at h
      · cases hx : f x i with
        | error e => rw [hx] at h; cases h
        | ok s =>
          have := hf _ _ _ hm.1 hl.1 hx
          rw [hx] at h
          cases s with
          | empty => cases h
          | union _ => cases h
          | item j =>
            simp only [VSet.extract, allEnds_cons] at this
            exact ih _ _ (allEnds_cons.2 ⟨this.1, hm.2⟩) hl.2 h
      · exact ih _ _ (allEnds_cons.2 ⟨hl.1, allEnds_cons.2 hm⟩) hl.2 h

theorem mergeItems_ends {f : Item → Item → Except PyErr VSet}
    (hf : ∀ a b s, a.Ends P → b.Ends P → f a b = .ok s → AllEnds P s.extract) {l : List Item} {s : VSet}
    (hl : AllEnds P l) (h : VSet.mergeItems f l = .ok s) : AllEnds P s.extract := by
  unfold VSet.mergeItems at h
  split at h
  · cases h; exact allEnds_nil
  · split at h
    · cases h
      simp only [VSet.universal, VSet.extract, allEnds_cons]
      exact ⟨universal_item_ends, allEnds_nil⟩
    · cases hm : VSet.mergeLoop f [] (VSet.sortItems l) with
      | error e => rw [hm] at h; cases h
      | ok m =>
        have := mergeLoop_ends hf _ _ _ allEnds_nil (fun i hi => hl i ((sortItems_perm l).mem_iff.1 hi)) hm
        rw [hm] at h
        simp only [bind, Except.bind] at h
        have hrev : AllEnds P m.reverse := fun i hi => this i (List.mem_reverse.1 hi)
        split at h
        · cases h; exact this
        · unfold VSet.mkUnion at h
          split at h
          · cases h
          · split at h
            · cases h
            · cases h; exact hrev

theorem unionItem_ends (lim : Nat) : ∀ (a b : Item) (s : VSet), a.Ends P → b.Ends P → Item.unionItem lim a b = .ok s →
    AllEnds P s.extract := by
  induction lim with
  | zero => intro a b s _ _ h; simp [Item.unionItem] at h
  | succ lim ih =>
    intro a b s ha hb h
    have hmerge : ∀ s, VSet.mergeItems (Item.unionItem lim) [a, b] = .ok s → AllEnds P s.extract := by
      intro s h
      exact mergeItems_ends ih (allEnds_cons.2 ⟨ha, allEnds_cons.2 ⟨hb, allEnds_nil⟩⟩) h
    have hmk : ∀ mn mx x y s, (do (.ok (VSet.item (← Item.mkRange mn mx x y)) : Except PyErr VSet)) = .ok s →
        (∀ v, mn = some v → P v) → (∀ v, mx = some v → P v) → AllEnds P s.extract := by
      intro mn mx x y s h h1 h2
      cases hr : Item.mkRange mn mx x y with
      | error e => rw [hr] at h; cases h
      | ok i =>
        rw [hr] at h; cases h
        exact allEnds_cons.2 ⟨ends_mkRange hr h1 h2, allEnds_nil⟩
    have one : ∀ i : Item, i.Ends P → AllEnds P (VSet.item i).extract := fun i hi => allEnds_cons.2 ⟨hi, allEnds_nil⟩
    cases a with
    | range r => cases b with
      | point v =>
        simp only [Item.unionItem] at h
        split at h
        · cases h; exact one _ ha
        · split at h
          · exact hmk _ _ _ _ _ h ha.1 ha.2
          · split at h
            · exact hmk _ _ _ _ _ h ha.1 ha.2
            · exact hmerge _ h
      | range t =>
        simp only [Item.unionItem] at h
        split at h
        · exact hmerge _ h
        · refine hmk _ _ _ _ _ h ?_ ?_
          · split
            · exact ha.1
            · exact hb.1
          · split
            · exact ha.2
            · exact hb.2
    | point v => cases b with
      | point w =>
        simp only [Item.unionItem] at h
        split at h
        · cases h; exact one _ ha
        · exact hmerge _ h
      | range t =>
        simp only [Item.unionItem] at h
        split at h
        · cases h; exact one _ hb
        · exact hmerge _ h

theorem unionOf_ends {lim : Nat} {l : List VSet} {s : VSet} (hl : ∀ x ∈ l, AllEnds P x.extract)
    (h : VSet.unionOf lim l = .ok s) : AllEnds P s.extract := by
  refine mergeItems_ends (unionItem_ends lim) ?_ h
  intro i hi
  obtain ⟨x, hx, hix⟩ := List.mem_flatMap.1 hi
  exact hl x hx i hix

theorem unionWith_ends {lim : Nat} {a b s : VSet} (ha : AllEnds P a.extract) (hb : AllEnds P b.extract)
    (h : a.unionWith lim b = .ok s) : AllEnds P s.extract := by
  have two : ∀ x y : VSet, AllEnds P x.extract → AllEnds P y.extract → ∀ z ∈ [x, y], AllEnds P z.extract := by
    intro x y hx hy z hz
    simp only [List.mem_cons, List.not_mem_nil, or_false] at hz
    rcases hz with rfl | rfl
    · exact hx
    · exact hy
  cases a with
  | empty => cases h; exact hb
  | item i => cases b with
    | empty => simp only [VSet.unionWith, Except.ok.injEq] at h; rw [← h]; exact ha
    | item j => exact unionItem_ends lim _ _ _ (allEnds_cons.1 ha).1 (allEnds_cons.1 hb).1 h
    | union items => cases i with
      | range r => exact unionOf_ends (two _ _ hb ha) h
      | point v =>
        simp only [VSet.unionWith] at h
        split at h
        · cases h; exact hb
        · exact unionOf_ends (two _ _ ha hb) h
  | union items => exact unionOf_ends (two _ _ ha hb) h

theorem intersectionItem_ends {a b : Item} {s : VSet} (ha : a.Ends P) (hb : b.Ends P)
    (h : a.intersectionItem b = .ok s) : AllEnds P s.extract := by
  cases a with
  | point v =>
    have : (if b.contains v then VSet.item (Item.point v) else .empty) = s := by
      cases b <;> simpa [Item.intersectionItem] using h
    subst this
    split
    · exact allEnds_cons.2 ⟨ha, allEnds_nil⟩
    · exact allEnds_nil
  | range r => cases b with
    | point v =>
      simp only [Item.intersectionItem, Except.ok.injEq] at h
      subst h
      split
      · exact allEnds_cons.2 ⟨hb, allEnds_nil⟩
      · exact allEnds_nil
    | range t =>
      simp only [Item.intersectionItem] at h
      split at h
      · cases h; exact allEnds_nil
      · split at h
        · cases h; exact allEnds_nil
        · cases hr : Item.mkRange
              (if (Item.range r).isLower (Item.range t) = true then ((Item.range t).min, (Item.range t).includeMin)
                else ((Item.range r).min, (Item.range r).includeMin)).1
              (if (Item.range r).isHigher (Item.range t) = true then ((Item.range t).max, (Item.range t).includeMax)
                else ((Item.range r).max, (Item.range r).includeMax)).1
              (if (Item.range r).isLower (Item.range t) = true then ((Item.range t).min, (Item.range t).includeMin)
                else ((Item.range r).min, (Item.range r).includeMin)).2
              (if (Item.range r).isHigher (Item.range t) = true then ((Item.range t).max, (Item.range t).includeMax)
                else ((Item.range r).max, (Item.range r).includeMax)).2 with
          | error e => rw [hr] at h; cases h
          | ok i =>
            have hi : i.Ends P := by
              refine ends_mkRange hr ?_ ?_
              · split
                · exact hb.1
                · exact ha.1
              · split
                · exact hb.2
                · exact ha.2
            rw [hr] at h
            simp only [bind, Except.bind] at h
            split at h
            · cases hv : i.version with
              | error e => rw [hv] at h; cases h
              | ok v =>
                rw [hv] at h; cases h
                refine allEnds_cons.2 ⟨ends_point.2 ?_, allEnds_nil⟩
                cases i with
                | point w => cases hv; exact ends_point.1 hi
                | range q =>
                  have hu : (Item.range q).versionUnchecked = .ok v := by
                    have he : (Item.range q).version = if (Item.range q).isPoint = true then (Item.range q).versionUnchecked
                      else .error .valueError := rfl
                    rw [he] at hv
                    by_cases hp : (Item.range q).isPoint = true
                    · rw [if_pos hp] at hv; exact hv
                    · rw [if_neg hp] at hv; cases hv
                  unfold Item.versionUnchecked at hu
                  split at hu
                  · cases hu; exact hi.1 _ ‹_›
                  · split at hu
                    · cases hu; exact hi.2 _ ‹_›
                    · cases hu
            · cases h; exact allEnds_cons.2 ⟨hi, allEnds_nil⟩

theorem intersectionLoop_ends (n : Nat) : ∀ (xs ys out : List Item), xs.length + ys.length ≤ n → AllEnds P xs → AllEnds P ys →
    VSet.intersectionLoop xs ys = .ok out → AllEnds P out := by
  induction n with
  | zero =>
    intro xs ys out hn _ _ h
    cases xs with
    | nil => simp only [VSet.intersectionLoop, Except.ok.injEq] at h; rw [← h]; exact allEnds_nil
    | cons x xs => simp at hn
  | succ n ih =>
    intro xs ys out hn hx hy h
    cases xs with
    | nil => simp only [VSet.intersectionLoop, Except.ok.injEq] at h; rw [← h]; exact allEnds_nil
    | cons x xs => cases ys with
      | nil => simp only [VSet.intersectionLoop, Except.ok.injEq] at h; rw [← h]; exact allEnds_nil
      | cons y ys =>
        simp only [List.length_cons] at hn
        rw [VSet.intersectionLoop] at h
        have hx' := allEnds_cons.1 hx
        have hy' := allEnds_cons.1 hy
        cases hi : x.intersectionItem y with
        | error e => rw [hi] at h; cases h
        | ok s =>
          have hs := intersectionItem_ends hx'.1 hy'.1 hi
          rw [hi] at h
          simp only [bind, Except.bind] at h
          have key : ∀ r : Except PyErr (List Item), (∀ rest, r = .ok rest → AllEnds P rest) →
              (r.bind fun rest => match (generalizing := false) s with
                  | .item i => .ok (i :: rest)
                  | _ => .ok rest) = Except.ok out → AllEnds P out := by
            intro r hr h
            cases r with
            | error e => cases h
            | ok rest =>
              have := hr _ rfl
              cases s with
              | empty => cases h; exact this
              | union _ => cases h; exact this
              | item i => cases h; exact allEnds_cons.2 ⟨(allEnds_cons.1 hs).1, this⟩
          split at h
          · refine key (VSet.intersectionLoop xs (y :: ys)) (fun rest hr => ih _ _ _ ?_ hx'.2 hy hr) h
            simp; omega
          · refine key (VSet.intersectionLoop (x :: xs) ys) (fun rest hr => ih _ _ _ ?_ hx hy'.2 hr) h
            simp; omega

theorem unionOf_items_ends {lim : Nat} {l : List Item} {s : VSet} (hl : AllEnds P l)
    (h : VSet.unionOf lim (l.map .item) = .ok s) : AllEnds P s.extract := by
  refine unionOf_ends ?_ h
  intro x hx
  obtain ⟨i, hi, rfl⟩ := List.mem_map.1 hx
  exact allEnds_cons.2 ⟨hl i hi, allEnds_nil⟩

theorem intersection_ends {lim : Nat} {a b s : VSet} (ha : AllEnds P a.extract) (hb : AllEnds P b.extract)
    (h : a.intersection lim b = .ok s) : AllEnds P s.extract := by
  have loop : ∀ xs ys s, AllEnds P xs → AllEnds P ys →
      (do VSet.unionOf lim ((← VSet.intersectionLoop xs ys).map .item)) = Except.ok s → AllEnds P s.extract := by
    intro xs ys s hx hy h
    cases hl : VSet.intersectionLoop xs ys with
    | error e => rw [hl] at h; cases h
    | ok out =>
      rw [hl] at h
      exact unionOf_items_ends (intersectionLoop_ends _ _ _ _ le_rfl hx hy hl) h
  cases a with
  | empty => simp only [VSet.intersection, Except.ok.injEq] at h; rw [← h]; exact allEnds_nil
  | item i => cases i with
    | point v =>
      have : (if b.contains v then VSet.item (Item.point v) else .empty) = s := by
        cases b <;> simpa [VSet.intersection] using h
      subst this
      split
      · exact ha
      · exact allEnds_nil
    | range r => cases b with
      | empty => simp only [VSet.intersection, Except.ok.injEq] at h; rw [← h]; exact allEnds_nil
      | item j => exact intersectionItem_ends (allEnds_cons.1 ha).1 (allEnds_cons.1 hb).1 h
      | union items => exact loop _ _ _ hb ha h
  | union items => exact loop _ _ _ ha hb h

theorem differenceItem_ends {lim : Nat} {a b : Item} {s : VSet} (ha : a.Ends P) (hb : b.Ends P)
    (h : a.differenceItem lim b = .ok s) : AllEnds P s.extract := by
  have one : ∀ i : Item, i.Ends P → AllEnds P (VSet.item i).extract := fun i hi => allEnds_cons.2 ⟨hi, allEnds_nil⟩
  have hmk : ∀ mn mx x y s, (do (.ok (VSet.item (← Item.mkRange mn mx x y)) : Except PyErr VSet)) = .ok s →
      (∀ v, mn = some v → P v) → (∀ v, mx = some v → P v) → AllEnds P s.extract := by
    intro mn mx x y s h h1 h2
    cases hr : Item.mkRange mn mx x y with
    | error e => rw [hr] at h; cases h
    | ok i =>
      rw [hr] at h; cases h
      exact one _ (ends_mkRange hr h1 h2)
  have two : ∀ x y s, x.Ends P → y.Ends P → Item.unionOf lim [x, y] = .ok s → AllEnds P s.extract := by
    intro x y s hx hy h
    exact mergeItems_ends (unionItem_ends lim) (allEnds_cons.2 ⟨hx, one _ hy⟩) h
  cases a with
  | point v =>
    have : (if b.contains v then .empty else VSet.item (Item.point v)) = s := by
      cases b <;> simpa [Item.differenceItem] using h
    subst this
    split
    · exact allEnds_nil
    · exact one _ ha
  | range r => cases b with
    | point v =>
      simp only [Item.differenceItem] at h
      split at h
      · cases h; exact one _ ha
      · split at h
        · split at h
          · cases h; exact one _ ha
          · exact hmk _ _ _ _ _ h ha.1 ha.2
        · split at h
          · split at h
            · cases h; exact one _ ha
            · exact hmk _ _ _ _ _ h ha.1 ha.2
          · cases h1 : Item.mkRange (Item.range r).min (some v) (Item.range r).includeMin false with
            | error e => rw [h1] at h; cases h
            | ok x => cases h2 : Item.mkRange (some v) (Item.range r).max false (Item.range r).includeMax with
              | error e => rw [h1, h2] at h; cases h
              | ok y =>
                rw [h1, h2] at h
                have hv := ends_point.1 hb
                exact two x y s (ends_mkRange h1 ha.1 (by rintro _ ⟨⟩; exact hv))
                  (ends_mkRange h2 (by rintro _ ⟨⟩; exact hv) ha.2) h
    | range t =>
      simp only [Item.differenceItem] at h
      split at h
      · cases h; exact one _ ha
      · have hpt : ∀ (o : Option Version) (i : Item), Item.pointOf o = .ok i → (∀ v, o = some v → P v) → i.Ends P := by
          intro o i ho hP
          cases o with
          | none => cases ho
          | some v => cases ho; exact ends_point.2 (hP _ rfl)
        cases h1 : Item.differenceBefore (Item.range r) (Item.range t) with
        | error e => rw [h1] at h; cases h
        | ok before => cases h2 : Item.differenceAfter (Item.range r) (Item.range t) with
          | error e => rw [h1, h2] at h; cases h
          | ok after =>
            have e1 : ∀ x, before = some x → x.Ends P := by
              rintro x rfl
              unfold Item.differenceBefore at h1
              split at h1
              · cases h1
              · split at h1
                · cases hp : Item.pointOf (Item.range r).min with
                  | error e => rw [hp] at h1; cases h1
                  | ok i => rw [hp] at h1; cases h1; exact hpt _ _ hp ha.1
                · cases hp : Item.mkRange (Item.range r).min (Item.range t).min (Item.range r).includeMin (Item.range t).excludeMin with
                  | error e => rw [hp] at h1; cases h1
                  | ok i => rw [hp] at h1; cases h1; exact ends_mkRange hp ha.1 hb.1
            have e2 : ∀ x, after = some x → x.Ends P := by
              rintro x rfl
              unfold Item.differenceAfter at h2
              split at h2
              · cases h2
              · split at h2
                · cases hp : Item.pointOf (Item.range r).max with
                  | error e => rw [hp] at h2; cases h2
                  | ok i => rw [hp] at h2; cases h2; exact hpt _ _ hp ha.2
                · cases hp : Item.mkRange (Item.range t).max (Item.range r).max (Item.range t).excludeMax (Item.range r).includeMax with
                  | error e => rw [hp] at h2; cases h2
                  | ok i => rw [hp] at h2; cases h2; exact ends_mkRange hp hb.2 ha.2
            rw [h1, h2] at h
            simp only [bind, Except.bind] at h
            cases before with
            | none => cases after with
              | none => cases h; exact allEnds_nil
              | some y => cases h; exact one _ (e2 _ rfl)
            | some x => cases after with
              | none => cases h; exact one _ (e1 _ rfl)
              | some y => exact two _ _ _ (e1 _ rfl) (e2 _ rfl) h

theorem differenceIterator_ends {lim : Nat} (l : List Item) : ∀ (cur : Item) (out : List Item), cur.Ends P → AllEnds P l →
    Item.differenceIterator lim cur l = .ok out → AllEnds P out := by
  induction l with
  | nil =>
    intro cur out hc _ h
    simp only [Item.differenceIterator, Except.ok.injEq] at h
    rw [← h]; exact allEnds_cons.2 ⟨hc, allEnds_nil⟩
  | cons i l ih =>
    intro cur out hc hl h
    rw [allEnds_cons] at hl
    simp only [Item.differenceIterator] at h
    split at h
    · exact ih _ _ hc hl.2 h
    · split at h
      · cases h; exact allEnds_cons.2 ⟨hc, allEnds_nil⟩
      · cases hd : cur.differenceItem lim i with
        | error e => rw [hd] at h; cases h
        | ok s =>
          have hs := differenceItem_ends hc hl.1 hd
          rw [hd] at h
          simp only [bind, Except.bind] at h
          cases s with
          | empty => exact ih _ _ hc hl.2 h
          | item j => exact ih _ _ (allEnds_cons.1 hs).1 hl.2 h
          | union items =>
            simp only at h
            split at h
            · rename_i left right
              simp only [VSet.extract, allEnds_cons] at hs
              cases hr : Item.differenceIterator lim right l with
              | error e => rw [hr] at h; cases h
              | ok rest =>
                rw [hr] at h; cases h
                exact allEnds_cons.2 ⟨hs.1, ih _ _ hs.2.1 hl.2 hr⟩
            · cases h

/-- All items in the state of the loop. -/
def Diff.AllEnds (P : Version → Prop) (d : VSet.Diff) : Prop :=
  Verif.AllEnds P d.items ∧ Verif.AllEnds P d.otherItems ∧ Verif.AllEnds P d.current.toList ∧
    Verif.AllEnds P d.otherCurrent.toList ∧ Verif.AllEnds P d.result

theorem nextOtherCurrent_ends {d : VSet.Diff} (h : Diff.AllEnds P d) : Diff.AllEnds P d.nextOtherCurrent.1 := by
  obtain ⟨items, others, cur, oth, result⟩ := d
  obtain ⟨h1, h2, h3, h4, h5⟩ := h
  simp only at h1 h2 h3 h4 h5
  cases others with
  | nil =>
    refine ⟨allEnds_nil, allEnds_nil, h3, allEnds_nil, ?_⟩
    simp only [VSet.Diff.nextOtherCurrent]
    refine allEnds_append.2 ⟨fun i hi => h1 i (List.mem_reverse.1 hi), ?_⟩
    cases cur with
    | none => exact h5
    | some c => exact allEnds_cons.2 ⟨h3 c (by simp), h5⟩
  | cons o others =>
    rw [allEnds_cons] at h2
    exact ⟨h1, h2.2, h3, allEnds_cons.2 ⟨h2.1, allEnds_nil⟩, h5⟩

theorem nextCurrent_ends {d : VSet.Diff} {b : Bool} (h : Diff.AllEnds P d) : Diff.AllEnds P (d.nextCurrent b).1 := by
  obtain ⟨items, others, cur, oth, result⟩ := d
  obtain ⟨h1, h2, h3, h4, h5⟩ := h
  simp only at h1 h2 h3 h4 h5
  have hr : AllEnds P (match (generalizing := false) b, cur with | true, some current => current :: result | _, _ => result) := by
    cases b with
    | false => exact h5
    | true => cases cur with
      | none => exact h5
      | some c => exact allEnds_cons.2 ⟨h3 c (by simp), h5⟩
  cases items with
  | nil => exact ⟨h1, h2, h3, h4, hr⟩
  | cons i items =>
    rw [allEnds_cons] at h1
    exact ⟨h1.2, h2, allEnds_cons.2 ⟨h1.1, allEnds_nil⟩, h4, hr⟩

theorem diffStep_ends {lim : Nat} {d d' : VSet.Diff} {b : Bool} (h : Diff.AllEnds P d) (hs : d.step lim = .ok (d', b)) :
    Diff.AllEnds P d' := by
  unfold VSet.Diff.step at hs
  split at hs
  · rename_i cur oth hcur hoth
    split at hs
    · have := nextOtherCurrent_ends h
      rw [Except.ok.inj hs] at this; exact this
    · split at hs
      · have := nextCurrent_ends (b := true) h
        rw [Except.ok.inj hs] at this; exact this
      · obtain ⟨h1, h2, h3, h4, h5⟩ := h
        rw [hcur] at h3
        rw [hoth] at h4
        cases hd : cur.differenceItem lim oth with
        | error e => rw [hd] at hs; cases hs
        | ok s =>
          have he := differenceItem_ends (allEnds_cons.1 h3).1 (allEnds_cons.1 h4).1 hd
          rw [hd] at hs
          simp only [bind, Except.bind] at hs
          cases s with
          | empty =>
            have := nextCurrent_ends (b := false) (P := P) (d := d) ⟨h1, h2, by rw [hcur]; exact h3, by rw [hoth]; exact h4, h5⟩
            rw [Except.ok.inj hs] at this; exact this
          | item j =>
            simp only at hs
            have hnew : Diff.AllEnds P { d with current := some j } := ⟨h1, h2, he, by rw [hoth]; exact h4, h5⟩
            split at hs
            · have := nextOtherCurrent_ends hnew
              rw [Except.ok.inj hs] at this; exact this
            · have := nextCurrent_ends (b := true) hnew
              rw [Except.ok.inj hs] at this; exact this
          | union items =>
            simp only at hs
            split at hs
            · rename_i left right
              simp only [VSet.extract, allEnds_cons] at he
              have hnew : Diff.AllEnds P { d with result := left :: d.result, current := some right } :=
                ⟨h1, h2, allEnds_cons.2 ⟨he.2.1, allEnds_nil⟩, by rw [hoth]; exact h4, allEnds_cons.2 ⟨he.1, h5⟩⟩
              have := nextOtherCurrent_ends hnew
              rw [Except.ok.inj hs] at this; exact this
            · cases hs
  · cases hs; exact h

theorem diffLoop_ends {lim : Nat} (fuel : Nat) : ∀ {d d' : VSet.Diff}, Diff.AllEnds P d → VSet.Diff.loop lim fuel d = .ok d' →
    Diff.AllEnds P d' := by
  induction fuel with
  | zero => intro d d' _ h; cases h
  | succ fuel ih =>
    intro d d' hd h
    simp only [VSet.Diff.loop] at h
    cases hs : d.step lim with
    | error e => rw [hs] at h; cases h
    | ok p =>
      obtain ⟨d1, b⟩ := p
      have := diffStep_ends hd hs
      rw [hs] at h
      cases b with
      | true => exact ih this h
      | false => cases h; exact this

theorem difference_ends {lim : Nat} {a b s : VSet} (ha : AllEnds P a.extract) (hb : AllEnds P b.extract)
    (h : a.difference lim b = .ok s) : AllEnds P s.extract := by
  cases a with
  | empty => simp only [VSet.difference, Except.ok.injEq] at h; rw [← h]; exact allEnds_nil
  | item i => cases i with
    | point v =>
      have : (if b.contains v then .empty else VSet.item (Item.point v)) = s := by
        cases b <;> simpa [VSet.difference] using h
      subst this
      split
      · exact allEnds_nil
      · exact ha
    | range r => cases b with
      | empty => simp only [VSet.difference, Except.ok.injEq] at h; rw [← h]; exact ha
      | item j => exact differenceItem_ends (allEnds_cons.1 ha).1 (allEnds_cons.1 hb).1 h
      | union items =>
        simp only [VSet.difference] at h
        cases hd : Item.differenceIterator lim (Item.range r) items with
        | error e => rw [hd] at h; cases h
        | ok out =>
          rw [hd] at h
          exact unionOf_items_ends (differenceIterator_ends _ _ _ (allEnds_cons.1 ha).1 hb hd) h
  | union items =>
    simp only [VSet.difference] at h
    cases hc : VSet.Diff.compute lim items b.extract with
    | error e => rw [hc] at h; cases h
    | ok out =>
      rw [hc] at h
      refine unionOf_items_ends ?_ h
      unfold VSet.Diff.compute at hc
      cases hl : VSet.Diff.loop lim (items.length + b.extract.length + 1)
          ⟨items.tail, b.extract.tail, items.head?, b.extract.head?, []⟩ with
      | error e => rw [hl] at hc; cases hc
      | ok d =>
        rw [hl] at hc; cases hc
        have tl : ∀ l : List Item, AllEnds P l → AllEnds P l.tail := fun l hl i hi => hl i (List.mem_of_mem_tail hi)
        have hd : ∀ l : List Item, AllEnds P l → AllEnds P l.head?.toList := by
          intro l hl
          cases l with
          | nil => exact allEnds_nil
          | cons x l => exact allEnds_cons.2 ⟨hl x (by simp), allEnds_nil⟩
        have := diffLoop_ends _ (P := P) ⟨tl _ ha, tl _ hb, hd _ ha, hd _ hb, allEnds_nil⟩ hl
        exact fun i hi => this.2.2.2.2 i (List.mem_reverse.1 hi)

theorem universal_ends : AllEnds P VSet.universal.extract :=
  allEnds_cons.2 ⟨universal_item_ends, allEnds_nil⟩

theorem complement_ends {lim : Nat} {a s : VSet} (ha : AllEnds P a.extract) (h : a.complement lim = .ok s) :
    AllEnds P s.extract := by
  cases a with
  | empty => cases h; exact universal_ends
  | item i => exact difference_ends universal_ends ha h
  | union l => exact difference_ends universal_ends ha h

theorem symmetricDifference_ends {lim : Nat} {a b s : VSet} (ha : AllEnds P a.extract) (hb : AllEnds P b.extract)
    (h : a.symmetricDifference lim b = .ok s) : AllEnds P s.extract := by
  cases a with
  | empty => cases h; exact hb
  | union l => cases h
  | item i =>
    simp only [VSet.symmetricDifference] at h
    cases hu : (VSet.item i).unionWith lim b with
    | error e => rw [hu] at h; cases h
    | ok u => cases hn : (VSet.item i).intersection lim b with
      | error e => rw [hu, hn] at h; cases h
      | ok n =>
        rw [hu, hn] at h
        exact difference_ends (unionWith_ends ha hb hu) (intersection_ends ha hb hn) h

theorem wf_iff (s : VSet) : s.Wf ↔ AllEnds Version.Wf s.extract := by
  cases s <;> simp [VSet.Wf, VSet.extract, AllEnds, Item.Wf, Item.Ends]

end Verif
