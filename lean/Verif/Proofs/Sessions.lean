import Verif.Model.Sessions
import Verif.Props.Congruence
import Verif.Props.Failures
import Verif.Proofs.ParsedSets
/-!
# Programs that use the cached functions
-/

namespace Verif
open Specifier

/-! ### values kept in caches -/

/-- If all values stored satisfy `P`, then `m` returns values that satisfy `R`, and the values stored afterwards satisfy `P`. -/
def Keeps {α β γ : Type} (P : β → Prop) (m : Cached α β γ) (R : γ → Prop) : Prop :=
  ∀ c : Cache α β, (∀ e ∈ c, P e.2) → (∀ x, (m c).1 = .ok x → R x) ∧ ∀ e ∈ (m c).2, P e.2

section
variable {α β γ δ : Type} {P : β → Prop} {R : γ → Prop} {T : δ → Prop}

theorem keeps_pure {r : Except PyErr γ} (h : ∀ x, r = .ok x → R x) : Keeps P (Cached.pure r : Cached α β γ) R :=
  fun _ hc => ⟨h, hc⟩

theorem keeps_andThen {m : Cached α β γ} {f : γ → Cached α β δ} (hm : Keeps P m R) (hf : ∀ x, R x → Keeps P (f x) T) :
    Keeps P (m.andThen f) T := by
  intro c hc
  obtain ⟨h1, h2⟩ := hm c hc
  unfold Cached.andThen
  generalize m c = p at h1 h2
  obtain ⟨q, c'⟩ := p
  cases q with
  | error e => exact ⟨(by intro x hx; cases hx), h2⟩
  | ok x => exact hf x (h1 x rfl) c' h2

theorem keeps_wrap {hash : α → Int} {eq : α → α → Bool} {key : α} {body : Cached α β β} (h : Keeps P body P) :
    Keeps P (Cached.wrap hash eq key body) P := by
  intro c hc
  unfold Cached.wrap
  split
  · next e he => exact ⟨by rintro x ⟨⟩; exact hc e (List.mem_of_find?_eq_some he), hc⟩
  · obtain ⟨h1, h2⟩ := h c hc
    generalize body c = p at h1 h2
    obtain ⟨q, c'⟩ := p
    cases q with
    | error e => exact ⟨(by intro x hx; cases hx), h2⟩
    | ok x =>
      refine ⟨h1, fun e he => ?_⟩
      rcases List.mem_cons.1 he with rfl | he
      · exact h1 _ rfl
      · exact h2 e he
end

/-- Sets with ends that strings can denote. -/
def VSet.CanonicalEnds (x : VSet) : Prop := AllEnds Version.Canonical x.extract

theorem reduceAllCached_ends (H : Hasher) (lim : Nat) {l : List Specifier}
    (hl : ∀ s ∈ l, Keeps VSet.CanonicalEnds (toSetCached H lim s) VSet.CanonicalEnds) :
    ∀ acc : VSet, acc.CanonicalEnds → Keeps VSet.CanonicalEnds (reduceAllCached H lim acc l) VSet.CanonicalEnds := by
  induction l with
  | nil => intro acc h; rw [reduceAllCached]; exact keeps_pure (by rintro x ⟨⟩; exact h)
  | cons s l ih =>
    intro acc h
    rw [reduceAllCached]
    exact keeps_andThen (hl s (by simp)) fun x hx =>
      keeps_andThen (R := VSet.CanonicalEnds) (keeps_pure fun y hy => intersection_ends h hx hy) fun y hy =>
        ih (fun t ht => hl t (by simp [ht])) y hy

theorem reduceAnyCached_ends (H : Hasher) (lim : Nat) {l : List Specifier}
    (hl : ∀ s ∈ l, Keeps VSet.CanonicalEnds (toSetCached H lim s) VSet.CanonicalEnds) :
    ∀ acc : VSet, acc.CanonicalEnds → Keeps VSet.CanonicalEnds (reduceAnyCached H lim acc l) VSet.CanonicalEnds := by
  induction l with
  | nil => intro acc h; rw [reduceAnyCached]; exact keeps_pure (by rintro x ⟨⟩; exact h)
  | cons s l ih =>
    intro acc h
    rw [reduceAnyCached]
    exact keeps_andThen (hl s (by simp)) fun x hx =>
      keeps_andThen (R := VSet.CanonicalEnds) (keeps_pure fun y hy => unionWith_ends h hx hy) fun y hy =>
        ih (fun t ht => hl t (by simp [ht])) y hy

theorem toSetCached_ends (H : Hasher) (lim : Nat) {s : Specifier} (hs : s.Canonical) :
    Keeps VSet.CanonicalEnds (toSetCached H lim s) VSet.CanonicalEnds := by
  induction hs with
  | never => rw [toSetCached]; exact keeps_wrap (keeps_pure (by rintro x ⟨⟩; exact allEnds_nil))
  | always => rw [toSetCached]; exact keeps_wrap (keeps_pure (by rintro x ⟨⟩; exact universal_ends))
  | one ho => rw [toSetCached]; exact keeps_wrap (keeps_pure fun x hx => Operator.toSet_ends ho hx)
  | @any l _ ih =>
    rw [toSetCached.eq_def]
    refine keeps_wrap ?_
    cases l with
    | nil => exact keeps_pure (by rintro x ⟨⟩)
    | cons s l => exact keeps_andThen (ih s (by simp)) (reduceAnyCached_ends H lim fun t ht => ih t (by simp [ht]))
  | @all l _ ih =>
    rw [toSetCached.eq_def]
    refine keeps_wrap ?_
    cases l with
    | nil => exact keeps_pure (by rintro x ⟨⟩)
    | cons s l => exact keeps_andThen (ih s (by simp)) (reduceAllCached_ends H lim fun t ht => ih t (by simp [ht]))

/-- The operators that sets are expressed with. -/
def Operator.Basic (o : Operator) : Prop := o.type.Simple ∧ o.version.Canonical

theorem ofItem_basic {i : Item} (h : i.Ends Version.Canonical) : (ofItem i).Over Operator.Basic := by
  obtain ⟨h1, h2⟩ := h
  match i, h1, h2 with
  | .point v, h1, _ => exact .one ⟨.inl rfl, h1 v rfl⟩
  | .range ⟨none, none, _, _⟩, _, _ => exact .always
  | .range ⟨some a, none, i, _⟩, h1, _ =>
    exact .one ⟨by cases i <;> simp [OpType.Simple], h1 a rfl⟩
  | .range ⟨none, some b, _, j⟩, _, h2 =>
    exact .one ⟨by cases j <;> simp [OpType.Simple], h2 b rfl⟩
  | .range ⟨some a, some b, i, j⟩, h1, h2 =>
    refine .all (by simp) fun s hs => ?_
    simp only [List.mem_cons, List.not_mem_nil, or_false] at hs
    rcases hs with rfl | rfl
    · exact .one ⟨by cases i <;> simp [OpType.Simple], h1 a rfl⟩
    · exact .one ⟨by cases j <;> simp [OpType.Simple], h2 b rfl⟩

theorem fromItemCached_basic (H : Hasher) {i : Item} (hi : i.Normal) (h : i.Ends Version.Canonical) :
    Keeps (Specifier.Over Operator.Basic) (fromItemCached H i) (Specifier.Over Operator.Basic) :=
  keeps_wrap (keeps_pure fun x hx => by rw [fromItem_eq hi] at hx; cases hx; exact ofItem_basic h)

theorem fromItemsCached_basic (H : Hasher) {l : List Item} (hl : AllNormal l) (h : AllEnds Version.Canonical l) :
    Keeps (Specifier.Over Operator.Basic) (fromItemsCached H l) (fun ts => ∀ t ∈ ts, t.Over Operator.Basic) := by
  induction l with
  | nil => exact keeps_pure (by rintro x ⟨⟩ t ht; cases ht)
  | cons i l ih =>
    obtain ⟨h1, h2⟩ := allEnds_cons.1 h
    refine keeps_andThen (fromItemCached_basic H hl.head h1) fun s hs =>
      keeps_andThen (ih hl.tail h2) fun ts hts => keeps_pure ?_
    rintro x ⟨⟩ t ht
    rcases List.mem_cons.1 ht with rfl | ht
    · exact hs
    · exact hts t ht

theorem anyOf_over {Q : Operator → Prop} {l : List Specifier} (hl : ∀ t ∈ l, t.Over Q) {s : Specifier} (h : anyOf l = .ok s) :
    s.Over Q := by
  match l, hl, h with
  | [], _, h => cases h; exact .never
  | [t], hl, h => cases h; exact hl _ (by simp)
  | t :: u :: l, hl, h => cases h; exact .any (by simp) hl

theorem allOf_over {Q : Operator → Prop} {l : List Specifier} (hl : ∀ t ∈ l, t.Over Q) {s : Specifier} (h : allOf l = .ok s) :
    s.Over Q := by
  match l, hl, h with
  | [], _, h => cases h; exact .always
  | [t], hl, h => cases h; exact hl _ (by simp)
  | t :: u :: l, hl, h => cases h; exact .all (by simp) hl

theorem tryExclude_basic {lim : Nat} {items : List Item} (h : AllEnds Version.Canonical items) {s : Specifier}
    (hs : tryExcludeVersion lim items = .ok (some s)) : s.Over Operator.Basic := by
  simp only [tryExcludeVersion, VSet.excludeVersion, bind, Except.bind] at hs
  cases hc : (VSet.union items).complement lim with
  | error e => rw [hc] at hs; cases hs
  | ok z =>
    rw [hc] at hs
    have hz : AllEnds Version.Canonical z.extract := complement_ends (a := .union items) h hc
    cases z with
    | empty => cases hs
    | union l => cases hs
    | item i => cases i with
      | range r => cases hs
      | point v =>
        cases hs
        exact .one ⟨by simp [OpType.Simple], (hz (.point v) (by simp [VSet.extract])).1 v rfl⟩

theorem fromSetCached_basic (H : Hasher) (lim : Nat) {x : VSet} (hx : x.Normal) (h : x.CanonicalEnds) :
    Keeps (Specifier.Over Operator.Basic) (fromSetCached H lim x) (Specifier.Over Operator.Basic) := by
  cases x with
  | empty => exact keeps_wrap (keeps_pure (by rintro x ⟨⟩; exact .never))
  | item i => exact fromItemCached_basic H hx (h i (by simp [VSet.extract]))
  | union items =>
    refine keeps_wrap (keeps_andThen (R := fun o => ∀ s, o = some s → s.Over Operator.Basic)
      (keeps_pure fun o ho s hs => tryExclude_basic (items := items) h (ho.trans (by rw [hs]))) fun o ho => ?_)
    cases o with
    | some s => exact keeps_pure (by rintro x ⟨⟩; exact ho _ rfl)
    | none =>
      exact keeps_andThen (fromItemsCached_basic H hx.allNormal h) fun ts hts => keeps_pure fun s hs => anyOf_over hts hs

theorem fromSet_basic {lim : Nat} {x : VSet} (hx : x.Normal) (h : x.CanonicalEnds) {s : Specifier} (hs : fromSet lim x = .ok s) :
    s.Over Operator.Basic := by
  cases x with
  | empty => cases hs; exact .never
  | item i =>
    simp only [fromSet] at hs
    rw [fromItem_eq hx] at hs
    cases hs
    exact ofItem_basic (h i (by simp [VSet.extract]))
  | union items =>
    simp only [fromSet, bind, Except.bind] at hs
    cases he : tryExcludeVersion lim items with
    | error e => rw [he] at hs; cases hs
    | ok o =>
      rw [he] at hs
      cases o with
      | some t => cases hs; exact tryExclude_basic h he
      | none =>
        have hm : items.mapM fromItem = .ok (items.map ofItem) := mapM_fromItem hx.allNormal
        simp only [hm] at hs
        refine anyOf_over (fun t ht => ?_) hs
        obtain ⟨i, hi, rfl⟩ := List.mem_map.1 ht
        exact ofItem_basic (h i hi)

/-! ### operations on equal sets -/

theorem SameSet.ends {a b : VSet} (h : SameSet (.ok a) (.ok b)) :
    a.extract.map (fun i => (i.lo, i.hi)) = b.extract.map (fun i => (i.lo, i.hi)) :=
  cov_ext h.1.allNormal h.1.gaps h.2.1.allNormal h.2.1.gaps h.2.2

theorem SameSet.shape {a b : VSet} (h : SameSet (.ok a) (.ok b)) :
    (a = .empty ∧ b = .empty) ∨ (∃ i j, a = .item i ∧ b = .item j ∧ i.lo = j.lo ∧ i.hi = j.hi) ∨
    (∃ l m, a = .union l ∧ b = .union m ∧ l.map (fun i => (i.lo, i.hi)) = m.map (fun i => (i.lo, i.hi))) := by
  have he := h.ends
  have hl := congrArg List.length he
  simp only [List.length_map] at hl
  obtain ⟨h1, h2, -⟩ := h
  cases a with
  | empty => cases b with
    | empty => exact .inl ⟨rfl, rfl⟩
    | item j => simp [VSet.extract] at hl
    | union m =>
      have := h2.1
      simp only [VSet.extract, List.length_nil] at hl
      omega
  | item i => cases b with
    | empty => simp [VSet.extract] at hl
    | item j =>
      simp only [VSet.extract, List.map_cons, List.map_nil, List.cons.injEq, Prod.mk.injEq, and_true] at he
      exact .inr (.inl ⟨i, j, rfl, rfl, he⟩)
    | union m =>
      have := h2.1
      simp only [VSet.extract, List.length_cons, List.length_nil] at hl
      omega
  | union l => cases b with
    | empty =>
      have := h1.1
      simp only [VSet.extract, List.length_nil] at hl
      omega
    | item j =>
      have := h1.1
      simp only [VSet.extract, List.length_cons, List.length_nil] at hl
      omega
    | union m => exact .inr (.inr ⟨l, m, rfl, rfl, he⟩)

theorem diffBad_congr {a a' b b' : VSet} (ha : SameSet (.ok a) (.ok a')) (hb : SameSet (.ok b) (.ok b')) (h : DiffBad a b) :
    DiffBad a' b' := by
  rcases h with ⟨r, items, rfl, rfl, j, hj, j1, j2⟩ | ⟨items, rfl, rfl⟩
  · rcases ha.shape with ⟨h, -⟩ | ⟨i, k, h, rfl, k1, k2⟩ | ⟨_, _, h, -⟩ <;> cases h
    rcases hb.shape with ⟨h, -⟩ | ⟨_, _, h, -⟩ | ⟨_, m, h, rfl, hm⟩ <;> cases h
    cases k with
    | point v => exact (Specifier.range_not_point (v := v) ha.1 k1 k2).elim
    | range s =>
      refine .inl ⟨s, m, rfl, rfl, ?_⟩
      have : (j.lo, j.hi) ∈ m.map (fun i => (i.lo, i.hi)) := hm ▸ List.mem_map.2 ⟨j, hj, rfl⟩
      obtain ⟨j', hj', he⟩ := List.mem_map.1 this
      simp only [Prod.mk.injEq] at he
      exact ⟨j', hj', by rw [he.1, ← k1]; exact j1, by rw [he.2, ← k2]; exact j2⟩
  · rcases ha.shape with ⟨h, -⟩ | ⟨_, _, h, -⟩ | ⟨_, m, h, rfl, -⟩ <;> cases h
    rcases hb.shape with ⟨-, rfl⟩ | ⟨_, _, h, -⟩ | ⟨_, m, h, -⟩
    · exact .inr ⟨_, rfl, rfl⟩
    · cases h
    · cases h

theorem difference_same {a a' b b' : VSet} (ha : SameSet (.ok a) (.ok a')) (hb : SameSet (.ok b) (.ok b')) (lim : Nat) :
    SameSet (a.difference lim b) (a'.difference lim b') := by
  by_cases hbad : DiffBad a b
  · have hbad' := diffBad_congr ha hb hbad
    rcases hbad with ⟨r, items, rfl, rfl, hj⟩ | ⟨items, rfl, rfl⟩
    · rcases hbad' with ⟨r', items', rfl, rfl, hj'⟩ | ⟨items', rfl, -⟩
      · rw [difference_bad_covered ha.1 hb.1 hj, difference_bad_covered ha.2.1 hb.2.1 hj']
        exact ha
      · rcases ha.shape with ⟨h, -⟩ | ⟨_, _, -, h, -⟩ | ⟨_, m, h, -⟩ <;> cases h
    · rcases hbad' with ⟨r', items', rfl, rfl, hj'⟩ | ⟨items', rfl, rfl⟩
      · rcases ha.shape with ⟨h, -⟩ | ⟨_, _, h, -⟩ | ⟨_, m, -, h, -⟩ <;> cases h
      · rw [difference_bad_empty, difference_bad_empty]
        exact ⟨trivial, trivial, fun _ => Iff.rfl⟩
  · have hbad' : ¬ DiffBad a' b' := fun h => hbad (diffBad_congr ha.symm hb.symm h)
    obtain ⟨a1, a2, a3⟩ := ha
    obtain ⟨b1, b2, b3⟩ := hb
    obtain ⟨s, s1, s2, s3⟩ := difference_spec a1 b1 hbad
    obtain ⟨t, t1, t2, t3⟩ := difference_spec a2 b2 hbad'
    rw [s1, t1]
    exact ⟨s2, t2, fun c => by rw [s3, t3, a3, b3]⟩

theorem complement_same {a a' : VSet} (ha : SameSet (.ok a) (.ok a')) (lim : Nat) :
    SameSet (a.complement lim) (a'.complement lim) := by
  obtain ⟨a1, a2, a3⟩ := ha
  obtain ⟨s, s1, s2, s3⟩ := complement_spec a1
  obtain ⟨t, t1, t2, t3⟩ := complement_spec a2
  rw [s1, t1]
  exact ⟨s2, t2, fun c => by rw [s3, t3, a3]⟩

theorem symmetricDifference_same {a a' b b' : VSet} (ha : SameSet (.ok a) (.ok a')) (hb : SameSet (.ok b) (.ok b')) (lim : Nat) :
    SameSet (a.symmetricDifference (lim + 2) b) (a'.symmetricDifference (lim + 2) b') := by
  rcases ha.shape with ⟨rfl, rfl⟩ | ⟨i, j, rfl, rfl, -⟩ | ⟨l, m, rfl, rfl, -⟩
  · exact hb
  · have hu := union_same ha hb lim
    have hn := inter_same ha hb (lim + 2)
    simp only [VSet.symmetricDifference, bind, Except.bind]
    cases h1 : (VSet.item i).unionWith (lim + 2) b <;> cases h2 : (VSet.item j).unionWith (lim + 2) b' <;> rw [h1, h2] at hu
    · exact hu
    · exact hu.elim
    · exact hu.elim
    · cases h3 : (VSet.item i).intersection (lim + 2) b <;> cases h4 : (VSet.item j).intersection (lim + 2) b' <;> rw [h3, h4] at hn
      · exact hn
      · exact hn.elim
      · exact hn.elim
      · exact difference_same hu hn _
  · exact rfl

theorem SameSet.contains {a b : VSet} (h : SameSet (.ok a) (.ok b)) (v : Version) : a.contains v = b.contains v := by
  rw [Bool.eq_iff_iff, contains_cov, contains_cov]; exact h.2.2 _

theorem SameSet.eq_eq {a a' b b' : VSet} (ha : SameSet (.ok a) (.ok a')) (hb : SameSet (.ok b) (.ok b')) : a.eq b = a'.eq b' := by
  rw [Bool.eq_iff_iff, eq_iff_cov ha.1 hb.1, eq_iff_cov ha.2.1 hb.2.1]
  exact forall_congr' fun c => by rw [ha.2.2, hb.2.2]

/-! ### equal specifiers -/

theorem Specifier.eq_eq {a a' b b' : Specifier} (ha : a.eq a' = true) (hb : b.eq b' = true) : a.eq b = a'.eq b' := by
  rw [Bool.eq_iff_iff]
  exact ⟨fun h => eq_trans _ _ _ (eq_symm _ _ ha) (eq_trans _ _ _ h hb),
    fun h => eq_trans _ _ _ ha (eq_trans _ _ _ h (eq_symm _ _ hb))⟩

theorem operators_accept {Q : Operator → Prop} (hQ : Alike Q) {o p : Operator} (ho : Q o) (hp : Q p) (h : o.eq p = true)
    (v : Version) : o.accepts v = p.accepts v := by
  have vo := hQ.valid o ho
  have vp := hQ.valid p hp
  have hr := hQ.same o p ho hp h
  obtain ⟨t, a⟩ := o
  obtain ⟨u, b⟩ := p
  simp only [Operator.eq, Bool.and_eq_true, Specifier.opType_eq_iff] at h
  have main : (⟨t, a⟩ : Operator).accepts v = (⟨t, b⟩ : Operator).accepts v := by
    refine (C95_operators t a b ⟨vo.version, vo.nonNeg⟩ ⟨vp.version, vp.nonNeg⟩ h.2 (fun ht => ⟨vo.tildeEqual ht, vp.tildeEqual ?_⟩)).1 hr v
    subst ht
    have h1 := h.1
    cases u <;> first | rfl | cases h1
  rw [main]
  have h1 := h.1
  cases t <;> cases u <;> first | rfl | cases h1

theorem Alike.accepts {Q : Operator → Prop} (hQ : Alike Q) {s t : Specifier} (hs : s.Over Q) (ht : t.Over Q) (h : s.eq t = true)
    (v : Version) : s.accepts v = t.accepts v := by
  have hany : ∀ {l m : List Specifier}, (∀ s ∈ l, ∀ t ∈ m, s.eq t = true → s.accepts v = t.accepts v) → eqList l m = true →
      anyAccepts l v = anyAccepts m v ∧ allAccepts l v = allAccepts m v := by
    intro l
    induction l with
    | nil => intro m _ h; cases m with
      | nil => exact ⟨rfl, rfl⟩
      | cons _ _ => simp [eqList] at h
    | cons s l ih => intro m hs h; cases m with
      | nil => simp [eqList] at h
      | cons t m =>
        simp only [eqList, Bool.and_eq_true] at h
        have h1 := hs s (by simp) t (by simp) h.1
        obtain ⟨h2, h3⟩ := ih (fun s hs' t ht => hs s (by simp [hs']) t (by simp [ht])) h.2
        simp only [anyAccepts, allAccepts, h1, h2, h3, and_self]
  induction hs generalizing t with
  | never => cases t <;> simp [Specifier.eq] at h; rfl
  | always => cases t <;> simp [Specifier.eq] at h; rfl
  | one ho => cases ht with
    | one hp => simp only [Specifier.eq] at h; simp only [Specifier.accepts]; exact operators_accept hQ ho hp h v
    | _ => simp [Specifier.eq] at h
  | any _ _ ih => cases ht with
    | any _ hm =>
      simp only [Specifier.eq] at h
      simp only [Specifier.accepts]
      exact (hany (fun s hs t ht he => ih s hs (hm t ht) he) h).1
    | _ => simp [Specifier.eq] at h
  | all _ _ ih => cases ht with
    | all _ hm =>
      simp only [Specifier.eq] at h
      simp only [Specifier.accepts]
      exact (hany (fun s hs t ht he => ih s hs (hm t ht) he) h).2
    | _ => simp [Specifier.eq] at h

theorem anyOf_eq {l m : List Specifier} (h : eqList l m = true) {s : Specifier} (hs : anyOf l = .ok s) :
    ∃ t, anyOf m = .ok t ∧ s.eq t = true := by
  match l, m, h, hs with
  | [], [], _, hs => cases hs; exact ⟨_, rfl, rfl⟩
  | [a], [b], h, hs =>
    cases hs
    simp only [eqList, Bool.and_true] at h
    exact ⟨b, rfl, h⟩
  | a :: a' :: l, b :: b' :: m, h, hs => cases hs; exact ⟨_, rfl, by simpa only [Specifier.eq] using h⟩
  | [], _ :: _, h, _ => simp [eqList] at h
  | _ :: _, [], h, _ => simp [eqList] at h
  | [_], _ :: _ :: _, h, _ => simp [eqList] at h
  | _ :: _ :: _, [_], h, _ => simp [eqList] at h

theorem allOf_eq {l m : List Specifier} (h : eqList l m = true) {s : Specifier} (hs : allOf l = .ok s) :
    ∃ t, allOf m = .ok t ∧ s.eq t = true := by
  match l, m, h, hs with
  | [], [], _, hs => cases hs; exact ⟨_, rfl, rfl⟩
  | [a], [b], h, hs =>
    cases hs
    simp only [eqList, Bool.and_true] at h
    exact ⟨b, rfl, h⟩
  | a :: a' :: l, b :: b' :: m, h, hs => cases hs; exact ⟨_, rfl, by simpa only [Specifier.eq] using h⟩
  | [], _ :: _, h, _ => simp [eqList] at h
  | _ :: _, [], h, _ => simp [eqList] at h
  | [_], _ :: _ :: _, h, _ => simp [eqList] at h
  | _ :: _ :: _, [_], h, _ => simp [eqList] at h

theorem Specifier.Over.mono {Q R : Operator → Prop} (hQR : ∀ o, Q o → R o) {s : Specifier} (h : s.Over Q) : s.Over R := by
  induction h with
  | never => exact .never
  | always => exact .always
  | one h => exact .one (hQR _ h)
  | any h _ ih => exact .any h ih
  | all h _ ih => exact .all h ih

theorem Specifier.Over.canonical {Q : Operator → Prop} (hQ : ∀ o, Q o → o.version.Canonical) {s : Specifier} (h : s.Over Q) :
    s.Canonical := by
  induction h with
  | never => exact .never
  | always => exact .always
  | one h => exact .one (hQ _ h)
  | any _ _ ih => exact .any ih
  | all _ _ ih => exact .all ih

/-- A specifier that constructors accept is over the operators it uses. -/
theorem Specifier.Valid.over {Q : Operator → Prop} {s : Specifier} (hs : s.Valid) (h : ∀ o, s.Uses o → Q o) : s.Over Q := by
  induction hs with
  | never => exact .never
  | always => exact .always
  | one => exact .one (h _ (.one _))
  | any hl _ ih => exact .any hl fun t ht => ih t ht fun o ho => h o (.any ht ho)
  | all hl _ ih => exact .all hl fun t ht => ih t ht fun o ho => h o (.all ht ho)

theorem Specifier.Canonical.uses {s : Specifier} (hs : s.Canonical) {o : Operator} (h : s.Uses o) : o.version.Canonical := by
  induction h with
  | one => cases hs with | one h => exact h
  | any hm _ ih => cases hs with | any h => exact ih (h _ hm)
  | all hm _ ih => cases hs with | all h => exact ih (h _ hm)

theorem Specifier.Valid.uses {s : Specifier} (hs : s.Valid) {o : Operator} (h : s.Uses o) :
    o.type = .tildeEqual → 2 ≤ o.version.release.precision := by
  induction h with
  | one => cases hs with | one _ h => exact h
  | any hm _ ih => cases hs with | any _ h => exact ih (h _ hm)
  | all hm _ ih => cases hs with | all _ h => exact ih (h _ hm)

theorem parse_uses {s : PyStr} {t : Specifier} (h : Specifier.parse s = .ok t) {o : Operator} (ho : t.Uses o) :
    o.Valid ∧ o.version.Canonical := by
  have hv := C52_valid s t h
  obtain ⟨gs, hg, rfl⟩ := (Specifier.parse_ok_iff' s t).1 h
  have hc := (ofAny_canonical hg).uses ho
  exact ⟨⟨hc.valid, hc.release, hv.uses ho⟩, hc⟩

end Verif
