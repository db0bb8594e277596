import Verif.Model.Caches
import Verif.Proofs.Specifiers
/-!
# Caches
-/

namespace Verif
open scoped Verif

/-! ### set operations on equal sets -/

/-- Sets in normal form with the same versions, or the same exception. -/
def SameSet : Except PyErr VSet → Except PyErr VSet → Prop
  | .ok x, .ok y => x.Normal ∧ y.Normal ∧ ∀ c, x.Cov c ↔ y.Cov c
  | .error e, .error f => e = f
  | _, _ => False

theorem SameSet.symm {r s : Except PyErr VSet} (h : SameSet r s) : SameSet s r := by
  cases r <;> cases s <;> simp only [SameSet] at h ⊢
  · exact h.symm
  · exact ⟨h.2.1, h.1, fun c => (h.2.2 c).symm⟩

theorem SameSet.trans {r s t : Except PyErr VSet} (h : SameSet r s) (g : SameSet s t) : SameSet r t := by
  cases r <;> cases s <;> cases t <;> simp only [SameSet] at h g ⊢
  · exact h.trans g
  · exact ⟨h.1, g.2.1, fun c => (h.2.2 c).trans (g.2.2 c)⟩

theorem inter_same {a a' b b' : VSet} (ha : SameSet (.ok a) (.ok a')) (hb : SameSet (.ok b) (.ok b')) (lim : Nat) :
    SameSet (a.intersection lim b) (a'.intersection lim b') := by
  obtain ⟨a1, a2, a3⟩ := ha
  obtain ⟨b1, b2, b3⟩ := hb
  obtain ⟨s, s1, s2, s3⟩ := intersection_spec a1 b1
  obtain ⟨t, t1, t2, t3⟩ := intersection_spec a2 b2
  rw [s1, t1]
  exact ⟨s2, t2, fun c => by rw [s3, t3, a3, b3]⟩

theorem isPt_iff_cut {i : Item} (hi : i.Normal) : i.IsPt ↔ ∃ v, i.lo = cutAt v false ∧ i.hi = cutAt v true := by
  constructor
  · exact fun h => h.hi_lo
  · rintro ⟨v, h1, h2⟩
    cases i with
    | point w => simp [Item.IsPt]
    | range r => exact (Specifier.range_not_point hi h1 h2).elim

theorem bad_congr {l m : List Item} (hl : AllNormal l) (hm : AllNormal m)
    (h : l.map (fun i => (i.lo, i.hi)) = m.map (fun i => (i.lo, i.hi))) : Bad l → Bad m := by
  have hget : ∀ i ∈ l, ∃ j ∈ m, j.lo = i.lo ∧ j.hi = i.hi ∧ (j.IsPt ↔ i.IsPt) := by
    intro i hi
    have : (i.lo, i.hi) ∈ m.map (fun i => (i.lo, i.hi)) := h ▸ List.mem_map.2 ⟨i, hi, rfl⟩
    obtain ⟨j, hj, he⟩ := List.mem_map.1 this
    simp only [Prod.mk.injEq] at he
    exact ⟨j, hj, he.1, he.2, by rw [isPt_iff_cut (hl i hi), isPt_iff_cut (hm j hj), he.1, he.2]⟩
  have hget' : ∀ j ∈ m, ∃ i ∈ l, j.lo = i.lo ∧ j.hi = i.hi ∧ (j.IsPt ↔ i.IsPt) := by
    intro j hj
    have : (j.lo, j.hi) ∈ l.map (fun i => (i.lo, i.hi)) := h ▸ List.mem_map.2 ⟨j, hj, rfl⟩
    obtain ⟨i, hi, he⟩ := List.mem_map.1 this
    simp only [Prod.mk.injEq] at he
    exact ⟨i, hi, he.1.symm, he.2.symm, by rw [isPt_iff_cut (hl i hi), isPt_iff_cut (hm j hj), he.1, he.2]⟩
  rintro ⟨p, hp, hpp, ⟨r, hr, hrr, hrp⟩, hs⟩
  obtain ⟨p', hp', p1, p2, p3⟩ := hget p hp
  obtain ⟨r', hr', r1, r2, r3⟩ := hget r hr
  refine ⟨p', hp', p3.2 hpp, ⟨r', hr', fun hc => hrr (r3.1 hc), by rw [r1, p2, hrp]⟩, fun s' hs' hc => ?_⟩
  obtain ⟨s, hs1, s1, s2, s3⟩ := hget' s' hs'
  rw [s1, s2, p1]
  exact hs s hs1 (fun hc' => hc (s3.2 hc'))

theorem unionBad_congr {a a' b b' : VSet} (ha : SameSet (.ok a) (.ok a')) (hb : SameSet (.ok b) (.ok b')) :
    UnionBad a b → UnionBad a' b' := by
  obtain ⟨a1, a2, a3⟩ := ha
  obtain ⟨b1, b2, b3⟩ := hb
  have ea := cov_ext a1.allNormal a1.gaps a2.allNormal a2.gaps a3
  have eb := cov_ext b1.allNormal b1.gaps b2.allNormal b2.gaps b3
  rintro ⟨h1, h2⟩
  refine ⟨bad_congr (a1.allNormal.append b1.allNormal) (a2.allNormal.append b2.allNormal) (by simp [ea, eb]) h1, ?_⟩
  rintro ⟨⟨r, rfl⟩, v, rfl⟩
  refine h2 ⟨?_, ?_⟩
  · have he := a1.extract.2.2
    have hl : a.extract.length = 1 := by simpa [VSet.extract] using congrArg List.length ea
    obtain ⟨i, hx⟩ := List.length_eq_one_iff.1 hl
    · rw [hx] at he ea
      cases i with
      | range s => exact ⟨s, he⟩
      | point w =>
        simp only [VSet.extract, List.map_cons, List.map_nil, List.cons.injEq, Prod.mk.injEq, and_true] at ea
        exact (Specifier.range_not_point (v := w) a2 ea.1.symm ea.2.symm).elim
  · exact Specifier.eq_point_of_cov b1 (fun c => by rw [b3, point_cov])

theorem union_same {a a' b b' : VSet} (ha : SameSet (.ok a) (.ok a')) (hb : SameSet (.ok b) (.ok b')) (lim : Nat) :
    SameSet (a.unionWith (lim + 2) b) (a'.unionWith (lim + 2) b') := by
  have h1 := unionBad_congr ha hb
  have h2 := unionBad_congr ha.symm hb.symm
  obtain ⟨a1, a2, a3⟩ := ha
  obtain ⟨b1, b2, b3⟩ := hb
  obtain ⟨p1, p2⟩ := unionWith_spec a1 b1
  obtain ⟨q1, q2⟩ := unionWith_spec a2 b2
  by_cases hbad : UnionBad a b
  · rw [p2 hbad, q2 (h1 hbad)]; rfl
  · obtain ⟨s, s1, s2, s3⟩ := p1 hbad
    obtain ⟨t, t1, t2, t3⟩ := q1 (fun h => hbad (h2 h))
    rw [s1, t1]
    exact ⟨s2, t2, fun c => by rw [s3, t3, a3, b3]⟩

/-! ### equal specifiers -/

namespace Specifier

/-- Specifiers made of the given operators. -/
inductive Over (Q : Operator → Prop) : Specifier → Prop
  | never : Over Q .never
  | always : Over Q .always
  | one {o : Operator} : Q o → Over Q (.one o)
  | any {l : List Specifier} : 2 ≤ l.length → (∀ s ∈ l, s.Over Q) → Over Q (.any l)
  | all {l : List Specifier} : 2 ≤ l.length → (∀ s ∈ l, s.Over Q) → Over Q (.all l)

/-- Operators that the constructor accepts, equal ones translating to equal sets. -/
structure Coherent (lim : Nat) (Q : Operator → Prop) : Prop where
  valid : ∀ o, Q o → o.version.Valid ∧ (o.type = .tildeEqual → 2 ≤ o.version.release.precision)
  same : ∀ o p, Q o → Q p → o.eq p = true → SameSet (o.toSet lim) (p.toSet lim)

variable {Q : Operator → Prop} {lim : Nat}

theorem Over.valid (hQ : Coherent lim Q) {s : Specifier} (h : s.Over Q) : s.Valid := by
  induction h with
  | never => exact .never
  | always => exact .always
  | one h => exact .one (hQ.valid _ h).1 (hQ.valid _ h).2
  | any h _ ih => exact .any h ih
  | all h _ ih => exact .all h ih

theorem sameSet_refl (hQ : Coherent lim Q) {s : Specifier} (h : s.Over Q) (l : Nat) : SameSet (toSet l s) (toSet l s) := by
  cases hx : toSet l s with
  | error e => rfl
  | ok x =>
    have := (toSet_means (h.valid hQ) l x hx).1
    exact ⟨this, this, fun _ => Iff.rfl⟩

theorem reduceAll_same : ∀ {l m : List Specifier}, (∀ s ∈ l, ∀ t ∈ m, s.eq t = true → SameSet (toSet lim s) (toSet lim t)) →
    eqList l m = true → ∀ {a b : VSet}, SameSet (.ok a) (.ok b) → SameSet (reduceAll lim a l) (reduceAll lim b m) := by
  intro l
  induction l with
  | nil => intro m _ h a b hab; cases m with
    | nil => simpa only [reduceAll] using hab
    | cons _ _ => simp [eqList] at h
  | cons s l ih => intro m hs h a b hab; cases m with
    | nil => simp [eqList] at h
    | cons t m =>
      simp only [eqList, Bool.and_eq_true] at h
      have hst := hs s (by simp) t (by simp) h.1
      simp only [reduceAll, bind, Except.bind]
      cases hx : toSet lim s <;> cases hy : toSet lim t <;> rw [hx, hy] at hst
      · exact hst
      · exact hst.elim
      · exact hst.elim
      · rename_i x y
        have hi := inter_same hab hst lim
        simp only
        cases hu : a.intersection lim x <;> cases hv : b.intersection lim y <;> rw [hu, hv] at hi
        · exact hi
        · exact hi.elim
        · exact hi.elim
        · exact ih (fun s hs' t ht => hs s (by simp [hs']) t (by simp [ht])) h.2 hi

theorem reduceAny_same : ∀ {l m : List Specifier},
    (∀ s ∈ l, ∀ t ∈ m, s.eq t = true → SameSet (toSet (lim + 2) s) (toSet (lim + 2) t)) →
    eqList l m = true → ∀ {a b : VSet}, SameSet (.ok a) (.ok b) →
      SameSet (reduceAny (lim + 2) a l) (reduceAny (lim + 2) b m) := by
  intro l
  induction l with
  | nil => intro m _ h a b hab; cases m with
    | nil => simpa only [reduceAny] using hab
    | cons _ _ => simp [eqList] at h
  | cons s l ih => intro m hs h a b hab; cases m with
    | nil => simp [eqList] at h
    | cons t m =>
      simp only [eqList, Bool.and_eq_true] at h
      have hst := hs s (by simp) t (by simp) h.1
      simp only [reduceAny, bind, Except.bind]
      cases hx : toSet (lim + 2) s <;> cases hy : toSet (lim + 2) t <;> rw [hx, hy] at hst
      · exact hst
      · exact hst.elim
      · exact hst.elim
      · rename_i x y
        have hi := union_same hab hst lim
        simp only
        cases hu : a.unionWith (lim + 2) x <;> cases hv : b.unionWith (lim + 2) y <;> rw [hu, hv] at hi
        · exact hi
        · exact hi.elim
        · exact hi.elim
        · exact ih (fun s hs' t ht => hs s (by simp [hs']) t (by simp [ht])) h.2 hi

/-- Equal specifiers made of coherent operators convert to equal sets. -/
theorem eq_same (hQ : Coherent (lim + 2) Q) {s t : Specifier} (hs : s.Over Q) (ht : t.Over Q) (h : s.eq t = true) :
    SameSet (toSet (lim + 2) s) (toSet (lim + 2) t) := by
  induction hs generalizing t with
  | never =>
    cases t <;> simp [Specifier.eq] at h
    exact sameSet_refl hQ ht _
  | always =>
    cases t <;> simp [Specifier.eq] at h
    exact sameSet_refl hQ ht _
  | one ho => cases ht with
    | one hp =>
      simp only [Specifier.eq] at h
      simp only [toSet]
      exact hQ.same _ _ ho hp h
    | _ => simp [Specifier.eq] at h
  | all hl _ ih => cases ht with
    | all hm hms =>
      rename_i l _ m
      simp only [Specifier.eq] at h
      match l, m, hl, hm, h, ih, hms with
      | s :: l, t :: m, _, _, h, ih, hms =>
        simp only [eqList, Bool.and_eq_true] at h
        have hst := ih s (by simp) (hms t (by simp)) h.1
        simp only [toSet, bind, Except.bind]
        cases hx : toSet (lim + 2) s <;> cases hy : toSet (lim + 2) t <;> rw [hx, hy] at hst
        · exact hst
        · exact hst.elim
        · exact hst.elim
        · exact reduceAll_same (fun s hs t ht h => ih s (by simp [hs]) (hms t (by simp [ht])) h) h.2 hst
    | _ => simp [Specifier.eq] at h
  | any hl _ ih => cases ht with
    | any hm hms =>
      rename_i l _ m
      simp only [Specifier.eq] at h
      match l, m, hl, hm, h, ih, hms with
      | s :: l, t :: m, _, _, h, ih, hms =>
        simp only [eqList, Bool.and_eq_true] at h
        have hst := ih s (by simp) (hms t (by simp)) h.1
        simp only [toSet, bind, Except.bind]
        cases hx : toSet (lim + 2) s <;> cases hy : toSet (lim + 2) t <;> rw [hx, hy] at hst
        · exact hst
        · exact hst.elim
        · exact hst.elim
        · exact reduceAny_same (fun s hs t ht h => ih s (by simp [hs]) (hms t (by simp [ht])) h) h.2 hst
    | _ => simp [Specifier.eq] at h

/-! ### the cache of `specifier_to_version_set` -/

/-- Every entry is what the conversion without cache gives, up to equality of sets. -/
def CacheOk (lim : Nat) (Q : Operator → Prop) (c : Cache Specifier VSet) : Prop :=
  ∀ e ∈ c, e.1.Over Q ∧ SameSet (.ok e.2) (toSet lim e.1)

/-- `m` computes `r`, up to equality of sets, and keeps the cache right. -/
def Computes (lim : Nat) (Q : Operator → Prop) (m : Cached Specifier VSet VSet) (r : Except PyErr VSet) : Prop :=
  ∀ c, CacheOk lim Q c → SameSet (m c).1 r ∧ CacheOk lim Q (m c).2

theorem computes_pure {r s : Except PyErr VSet} (h : SameSet r s) : Computes lim Q (.pure r) s := fun _ hc => ⟨h, hc⟩

theorem computes_andThen {m : Cached Specifier VSet VSet} {r : Except PyErr VSet} (h : Computes lim Q m r)
    {f : VSet → Cached Specifier VSet VSet} {g : VSet → Except PyErr VSet}
    (hf : ∀ x y, SameSet (.ok x) (.ok y) → Computes lim Q (f x) (g y)) : Computes lim Q (m.andThen f) (r.bind g) := by
  intro c hc
  obtain ⟨h1, h2⟩ := h c hc
  unfold Cached.andThen
  generalize hm : m c = p at h1 h2
  obtain ⟨q, c'⟩ := p
  simp only at h1 h2
  cases q with
  | error e => cases r with
    | error f => exact ⟨h1, h2⟩
    | ok y => exact h1.elim
  | ok x => cases r with
    | error f => exact h1.elim
    | ok y => exact hf x y h1 c' h2

theorem computes_wrap (H : Hasher) (hQ : Coherent (lim + 2) Q) {s : Specifier} (hs : s.Over Q)
    {body : Cached Specifier VSet VSet} (h : Computes (lim + 2) Q body (toSet (lim + 2) s)) :
    Computes (lim + 2) Q (.wrap H.specifier Specifier.eq s body) (toSet (lim + 2) s) := by
  intro c hc
  unfold Cached.wrap
  split
  · rename_i e he
    have h1 := List.find?_some he
    have h2 := List.mem_of_find?_eq_some he
    simp only [Bool.and_eq_true] at h1
    obtain ⟨g1, g2⟩ := hc e h2
    exact ⟨g2.trans (eq_same hQ g1 hs h1.2), hc⟩
  · obtain ⟨h1, h2⟩ := h c hc
    generalize hb : body c = p at h1 h2
    obtain ⟨q, c'⟩ := p
    simp only at h1 h2
    cases q with
    | error e => exact ⟨h1, h2⟩
    | ok x =>
      refine ⟨h1, fun e he => ?_⟩
      rcases List.mem_cons.1 he with rfl | he
      · exact ⟨hs, h1⟩
      · exact h2 e he

theorem reduceAllCached_computes (H : Hasher) {l : List Specifier}
    (ih : ∀ s ∈ l, Computes (lim + 2) Q (toSetCached H (lim + 2) s) (toSet (lim + 2) s)) :
    ∀ x y, SameSet (.ok x) (.ok y) →
      Computes (lim + 2) Q (reduceAllCached H (lim + 2) x l) (reduceAll (lim + 2) y l) := by
  induction l with
  | nil => intro x y h; simp only [reduceAllCached, reduceAll]; exact computes_pure h
  | cons s l ihl =>
    intro x y h
    simp only [reduceAllCached, reduceAll]
    refine computes_andThen (ih s (by simp)) (g := fun z => (y.intersection (lim + 2) z).bind fun w => reduceAll (lim + 2) w l)
      (fun u v huv => ?_)
    exact computes_andThen (computes_pure (inter_same h huv _)) (fun a b hab => ihl (fun s hs => ih s (by simp [hs])) a b hab)

theorem reduceAnyCached_computes (H : Hasher) {l : List Specifier}
    (ih : ∀ s ∈ l, Computes (lim + 2) Q (toSetCached H (lim + 2) s) (toSet (lim + 2) s)) :
    ∀ x y, SameSet (.ok x) (.ok y) →
      Computes (lim + 2) Q (reduceAnyCached H (lim + 2) x l) (reduceAny (lim + 2) y l) := by
  induction l with
  | nil => intro x y h; simp only [reduceAnyCached, reduceAny]; exact computes_pure h
  | cons s l ihl =>
    intro x y h
    simp only [reduceAnyCached, reduceAny]
    refine computes_andThen (ih s (by simp)) (g := fun z => (y.unionWith (lim + 2) z).bind fun w => reduceAny (lim + 2) w l)
      (fun u v huv => ?_)
    exact computes_andThen (computes_pure (union_same h huv _)) (fun a b hab => ihl (fun s hs => ih s (by simp [hs])) a b hab)

theorem toSetCached_computes (H : Hasher) (hQ : Coherent (lim + 2) Q) {s : Specifier} (hs : s.Over Q) :
    Computes (lim + 2) Q (toSetCached H (lim + 2) s) (toSet (lim + 2) s) := by
  have hs' := hs
  induction hs with
  | never =>
    simp only [toSetCached]
    exact computes_wrap H hQ hs' (computes_pure (by have := sameSet_refl hQ hs' (lim + 2); simpa only [toSet] using this))
  | always =>
    simp only [toSetCached]
    exact computes_wrap H hQ hs' (computes_pure (by have := sameSet_refl hQ hs' (lim + 2); simpa only [toSet] using this))
  | one ho =>
    simp only [toSetCached]
    exact computes_wrap H hQ hs' (computes_pure (by have := sameSet_refl hQ hs' (lim + 2); simpa only [toSet] using this))
  | all hl hin ih =>
    rename_i l
    match l, hl, hin, ih, hs' with
    | s :: l, _, hin, ih, hs' =>
      simp only [toSetCached]
      refine computes_wrap H hQ hs' ?_
      simp only [toSet]
      exact computes_andThen (ih s (by simp) (hin s (by simp)))
        (reduceAllCached_computes H (fun t ht => ih t (by simp [ht]) (hin t (by simp [ht]))))
  | any hl hin ih =>
    rename_i l
    match l, hl, hin, ih, hs' with
    | s :: l, _, hin, ih, hs' =>
      simp only [toSetCached]
      refine computes_wrap H hQ hs' ?_
      simp only [toSet]
      exact computes_andThen (ih s (by simp) (hin s (by simp)))
        (reduceAnyCached_computes H (fun t ht => ih t (by simp [ht]) (hin t (by simp [ht]))))

/-! ### equality of specifiers -/

theorem opType_eq_iff (a b : OpType) : a.eq b = true ↔
    (match a with | .equal => .doubleEqual | .wildcardEqual => .wildcardDoubleEqual | t => t : OpType) =
      (match b with | .equal => .doubleEqual | .wildcardEqual => .wildcardDoubleEqual | t => t) := by
  cases a <;> cases b <;> decide

theorem op_eq_trans {a b c : Operator} (h : a.eq b = true) (g : b.eq c = true) : a.eq c = true := by
  simp only [Operator.eq, Bool.and_eq_true, opType_eq_iff, veq_iff] at *
  exact ⟨h.1.trans g.1, h.2.trans g.2⟩

theorem op_eq_symm {a b : Operator} (h : a.eq b = true) : b.eq a = true := by
  simp only [Operator.eq, Bool.and_eq_true, opType_eq_iff, veq_iff] at *
  exact ⟨h.1.symm, h.2.symm⟩

theorem op_eq_refl (a : Operator) : a.eq a = true := by
  simp only [Operator.eq, Bool.and_eq_true, opType_eq_iff, veq_iff, and_self]

mutual
theorem eq_refl : ∀ s : Specifier, s.eq s = true
  | never => rfl
  | always => rfl
  | one o => by simp only [Specifier.eq]; exact op_eq_refl o
  | any l => by simp only [Specifier.eq]; exact eqList_refl l
  | all l => by simp only [Specifier.eq]; exact eqList_refl l
theorem eqList_refl : ∀ l : List Specifier, eqList l l = true
  | [] => rfl
  | s :: l => by simp only [eqList, Bool.and_eq_true]; exact ⟨eq_refl s, eqList_refl l⟩
end

mutual
theorem eq_symm : ∀ s t : Specifier, s.eq t = true → t.eq s = true
  | never, t, h => by cases t <;> simp [Specifier.eq] at h ⊢
  | always, t, h => by cases t <;> simp [Specifier.eq] at h ⊢
  | one o, t, h => by
    cases t <;> simp [Specifier.eq] at h ⊢
    exact op_eq_symm h
  | any l, t, h => by
    cases t <;> simp [Specifier.eq] at h ⊢
    exact eqList_symm l _ h
  | all l, t, h => by
    cases t <;> simp [Specifier.eq] at h ⊢
    exact eqList_symm l _ h
theorem eqList_symm : ∀ l m : List Specifier, eqList l m = true → eqList m l = true
  | [], m, h => by cases m <;> simp [eqList] at h ⊢
  | s :: l, m, h => by
    cases m with
    | nil => simp [eqList] at h
    | cons t m =>
      simp only [eqList, Bool.and_eq_true] at h ⊢
      exact ⟨eq_symm s t h.1, eqList_symm l m h.2⟩
end

mutual
theorem eq_trans : ∀ s t u : Specifier, s.eq t = true → t.eq u = true → s.eq u = true
  | never, t, u, h, g => by cases t <;> cases u <;> simp [Specifier.eq] at h g ⊢
  | always, t, u, h, g => by cases t <;> cases u <;> simp [Specifier.eq] at h g ⊢
  | one o, t, u, h, g => by
    cases t <;> cases u <;> simp [Specifier.eq] at h g ⊢
    exact op_eq_trans h g
  | any l, t, u, h, g => by
    cases t <;> cases u <;> simp [Specifier.eq] at h g ⊢
    exact eqList_trans l _ _ h g
  | all l, t, u, h, g => by
    cases t <;> cases u <;> simp [Specifier.eq] at h g ⊢
    exact eqList_trans l _ _ h g
theorem eqList_trans : ∀ l m n : List Specifier, eqList l m = true → eqList m n = true → eqList l n = true
  | [], m, n, h, g => by cases m <;> cases n <;> simp [eqList] at h g ⊢
  | s :: l, m, n, h, g => by
    cases m with
    | nil => simp [eqList] at h
    | cons t m => cases n with
      | nil => simp [eqList] at g
      | cons u n =>
        simp only [eqList, Bool.and_eq_true] at h g ⊢
        exact ⟨eq_trans s t u h.1 g.1, eqList_trans l m n h.2 g.2⟩
end

/-! ### the cache of `version_set_to_specifier` -/

/-- `t` is equal to what the conversion without cache gives, and accepts the same versions. -/
def Represents (t : Specifier) (x : VSet) : Prop :=
  (∃ u, (∀ lim, fromSet lim x = .ok u) ∧ t.eq u = true) ∧ ∀ v : Version, t.accepts v = .ok (x.contains v)

def FromOk (c : Cache VSet Specifier) : Prop := ∀ e ∈ c, e.1.Normal ∧ e.2.Represents e.1

theorem represents_congr {t : Specifier} {x y : VSet} (hx : x.Normal) (hy : y.Normal) (h : x.eq y = true) (ht : t.Represents x) :
    t.Represents y := by
  obtain ⟨⟨u, u1, u2⟩, h2⟩ := ht
  obtain ⟨p, q, p1, q1, pq⟩ := fromSet_congr hx hy ((eq_iff_cov hx hy).1 h)
  obtain rfl : u = p := Except.ok.inj ((u1 0).symm.trans (p1 0))
  refine ⟨⟨q, q1, eq_trans _ _ _ u2 pq⟩, fun v => ?_⟩
  rw [h2]
  congr 1
  rw [Bool.eq_iff_iff, contains_cov, contains_cov]
  exact (eq_iff_cov hx hy).1 h _

theorem fromItem_represents {i : Item} (hi : i.Normal) : (ofItem i).Represents (.item i) := by
  obtain ⟨y, y1, y2, y3⟩ := ofItem_toSet hi
  refine ⟨⟨ofItem i, fun lim => fromItem_eq hi, eq_refl _⟩, fun v => ?_⟩
  rw [y2.2 v]
  congr 1
  rw [Bool.eq_iff_iff, contains_cov, contains_cov]
  exact y3 _

/-- `m` returns a specifier for `x`, and keeps the cache right. -/
def Converts (m : Cached VSet Specifier Specifier) (x : VSet) : Prop :=
  ∀ c, FromOk c → (∃ t, (m c).1 = .ok t ∧ t.Represents x) ∧ FromOk (m c).2

theorem converts_wrap (H : Hasher) {x : VSet} (hx : x.Normal) {body : Cached VSet Specifier Specifier}
    (h : Converts body x) : Converts (.wrap H.vset VSet.eq x body) x := by
  intro c hc
  unfold Cached.wrap
  split
  · rename_i e he
    have h1 := List.find?_some he
    have h2 := List.mem_of_find?_eq_some he
    simp only [Bool.and_eq_true] at h1
    obtain ⟨g1, g2⟩ := hc e h2
    exact ⟨⟨e.2, rfl, represents_congr g1 hx h1.2 g2⟩, hc⟩
  · obtain ⟨⟨t, h1, ht⟩, h2⟩ := h c hc
    generalize hb : body c = p at h1 h2
    obtain ⟨q, c'⟩ := p
    simp only at h1 h2
    subst h1
    refine ⟨⟨t, rfl, ht⟩, fun e he => ?_⟩
    rcases List.mem_cons.1 he with rfl | he
    · exact ⟨hx, ht⟩
    · exact h2 e he

theorem fromItemCached_converts (H : Hasher) {i : Item} (hi : i.Normal) : Converts (fromItemCached H i) (.item i) := by
  exact converts_wrap H (x := .item i) hi (fun c hc => ⟨⟨ofItem i, fromItem_eq hi, fromItem_represents hi⟩, hc⟩)

theorem fromItemsCached_spec (H : Hasher) {l : List Item} (hl : AllNormal l) : ∀ c, FromOk c →
    ∃ ts, (fromItemsCached H l c).1 = .ok ts ∧ FromOk (fromItemsCached H l c).2 ∧ ts.length = l.length ∧
      eqList ts (l.map ofItem) = true ∧ ∀ v : Version, anyAccepts ts v = .ok (l.any (fun i => i.contains v)) := by
  induction l with
  | nil => intro c hc; exact ⟨[], rfl, hc, rfl, rfl, fun v => by simp [anyAccepts]⟩
  | cons i l ih =>
    intro c hc
    obtain ⟨⟨t, t1, t2⟩, t3⟩ := fromItemCached_converts H hl.head c hc
    obtain ⟨ts, s1, s2, s3, s4, s5⟩ := ih hl.tail _ t3
    simp only [fromItemsCached, Cached.andThen, Cached.pure]
    generalize fromItemCached H i c = p at *
    obtain ⟨q, c'⟩ := p
    simp only at t1 t3 s1 s2
    subst t1
    simp only
    generalize fromItemsCached H l c' = p at *
    obtain ⟨q, c''⟩ := p
    simp only at s1 s2
    subst s1
    refine ⟨t :: ts, rfl, s2, by simp [s3], ?_, fun v => ?_⟩
    · obtain ⟨⟨u, u1, u2⟩, -⟩ := t2
      have : fromItem i = .ok u := u1 0
      rw [fromItem_eq hl.head] at this
      injection this with this
      subst this
      simp only [List.map_cons, eqList, Bool.and_eq_true]
      exact ⟨u2, s4⟩
    · simp only [anyAccepts, t2.2 v, VSet.contains, s5 v, List.any_cons, bind, Except.bind]
      cases i.contains v <;> simp

theorem fromSetCached_converts (H : Hasher) (lim : Nat) {x : VSet} (hx : x.Normal) : Converts (fromSetCached H lim x) x := by
  cases x with
  | empty => exact converts_wrap H hx (fun c hc => ⟨⟨never, rfl, ⟨never, fun _ => rfl, rfl⟩, fun v => by
      simp [accepts, VSet.contains]⟩, hc⟩)
  | item i => exact fromItemCached_converts H hx
  | union items =>
    refine converts_wrap H hx (fun c hc => ?_)
    obtain ⟨t, t1, t2, -⟩ := fromSet_spec hx
    have hfrom := t1 lim
    simp only [fromSet] at hfrom
    simp only [Cached.andThen, Cached.pure]
    cases he : tryExcludeVersion lim items with
    | error e => simp [he, bind, Except.bind] at hfrom
    | ok o =>
      cases o with
      | some s =>
        simp only [he, bind, Except.bind, Except.ok.injEq] at hfrom
        subst hfrom
        exact ⟨⟨s, rfl, ⟨s, t1, eq_refl _⟩, t2⟩, hc⟩
      | none =>
        obtain ⟨hl, hn, -⟩ := hx
        simp only [he, bind, Except.bind, mapM_fromItem hn] at hfrom
        obtain ⟨ts, s1, s2, s3, s4, s5⟩ := fromItemsCached_spec H hn c hc
        simp only [Cached.andThen]
        generalize fromItemsCached H items c = p at *
        obtain ⟨q, c'⟩ := p
        simp only at s1 s2
        subst s1
        rw [← s3] at hl
        have h1 : anyOf ts = .ok (any ts) := by
          match ts, hl with
          | _ :: _ :: _, _ => rfl
        have h2 : t = any (items.map ofItem) := by
          match items, s3, hl, hfrom with
          | a :: b :: l, _, _, hfrom => exact (Except.ok.inj hfrom).symm
          | [_], s3, hl, _ => simp at s3; omega
          | [], s3, hl, _ => simp at s3; simp [s3] at hl
        refine ⟨⟨any ts, h1, ⟨t, t1, ?_⟩, fun v => ?_⟩, s2⟩
        · subst h2; simp only [Specifier.eq]; exact s4
        · simp only [accepts, s5, VSet.contains]

end Specifier
end Verif
