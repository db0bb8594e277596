import Verif.Spec.Specifiers
import Verif.Props.Operators
/-!
# Specifiers and version sets
-/

namespace Verif
open scoped Verif
namespace Specifier

/-- What converting a specifier should give. -/
def Means (s : Specifier) (x : VSet) : Prop := x.Normal ∧ ∀ v : Version, s.accepts v = .ok (x.contains v)

theorem contains_and {a b s : VSet} (h : ∀ c, s.Cov c ↔ a.Cov c ∧ b.Cov c) (v : Version) :
    s.contains v = (a.contains v && b.contains v) := by
  rw [Bool.eq_iff_iff, Bool.and_eq_true, contains_cov, contains_cov, contains_cov, h]

theorem contains_or {a b s : VSet} (h : ∀ c, s.Cov c ↔ a.Cov c ∨ b.Cov c) (v : Version) :
    s.contains v = (a.contains v || b.contains v) := by
  rw [Bool.eq_iff_iff, Bool.or_eq_true, contains_cov, contains_cov, contains_cov, h]

theorem anyAccepts_spec {l : List Specifier} {v : Version} (h : ∀ s ∈ l, ∃ b, s.accepts v = .ok b) :
    ∃ b, anyAccepts l v = .ok b ∧ (b = true ↔ ∃ s ∈ l, s.accepts v = .ok true) := by
  induction l with
  | nil => exact ⟨false, rfl, by simp⟩
  | cons s l ih =>
    obtain ⟨b, hb⟩ := h s (by simp)
    obtain ⟨c, c1, c2⟩ := ih (fun t ht => h t (by simp [ht]))
    cases b with
    | true => exact ⟨true, by simp [anyAccepts, hb, bind, Except.bind], by simp [hb]⟩
    | false => exact ⟨c, by simp [anyAccepts, hb, c1, bind, Except.bind], by simp [hb, c2]⟩

theorem allAccepts_spec {l : List Specifier} {v : Version} (h : ∀ s ∈ l, ∃ b, s.accepts v = .ok b) :
    ∃ b, allAccepts l v = .ok b ∧ (b = true ↔ ∀ s ∈ l, s.accepts v = .ok true) := by
  induction l with
  | nil => exact ⟨true, rfl, by simp⟩
  | cons s l ih =>
    obtain ⟨b, hb⟩ := h s (by simp)
    obtain ⟨c, c1, c2⟩ := ih (fun t ht => h t (by simp [ht]))
    cases b with
    | true => exact ⟨c, by simp [allAccepts, hb, c1, bind, Except.bind], by simp [hb, c2]⟩
    | false => exact ⟨false, by simp [allAccepts, hb, bind, Except.bind], by simp [hb]⟩

theorem accepts_total {s : Specifier} (hs : s.Valid) (v : Version) : ∃ b, s.accepts v = .ok b := by
  induction hs with
  | never => exact ⟨_, rfl⟩
  | always => exact ⟨_, rfl⟩
  | one hv ht =>
    rcases op_view hv ht with ⟨s, -, -, h⟩ | ⟨-, h⟩
    · exact ⟨_, h v⟩
    · exact ⟨_, h v⟩
  | any _ _ ih =>
    obtain ⟨b, hb, -⟩ := anyAccepts_spec ih
    exact ⟨b, by simpa only [accepts] using hb⟩
  | all _ _ ih =>
    obtain ⟨b, hb, -⟩ := allAccepts_spec ih
    exact ⟨b, by simpa only [accepts] using hb⟩

/-! ### from specifiers to sets -/

theorem reduceAll_means {lim : Nat} {l : List Specifier} (ih : ∀ s ∈ l, ∀ x, toSet lim s = .ok x → s.Means x) {acc x : VSet}
    (hacc : acc.Normal) (h : reduceAll lim acc l = .ok x) :
    x.Normal ∧ ∀ v : Version, ∃ b, allAccepts l v = .ok b ∧ x.contains v = (acc.contains v && b) := by
  induction l generalizing acc with
  | nil =>
    simp only [reduceAll, Except.ok.injEq] at h
    subst h
    exact ⟨hacc, fun v => ⟨true, by simp [allAccepts], by simp⟩⟩
  | cons s l ihl =>
    simp only [reduceAll, bind, Except.bind] at h
    cases hy : toSet lim s with
    | error e => simp [hy] at h
    | ok y =>
      obtain ⟨y1, y2⟩ := ih s (by simp) y hy
      obtain ⟨z, z1, z2, z3⟩ := intersection_spec hacc y1
      simp only [hy, z1] at h
      obtain ⟨x1, x2⟩ := ihl (fun t ht => ih t (by simp [ht])) z2 h
      refine ⟨x1, fun v => ?_⟩
      obtain ⟨b, b1, b2⟩ := x2 v
      refine ⟨y.contains v && b, ?_, by rw [b2, contains_and z3 v, Bool.and_assoc]⟩
      cases hc : y.contains v <;> simp [allAccepts, y2 v, hc, b1, bind, Except.bind]

theorem reduceAny_means {lim : Nat} {l : List Specifier} (ih : ∀ s ∈ l, ∀ x, toSet lim s = .ok x → s.Means x) {acc x : VSet}
    (hacc : acc.Normal) (h : reduceAny lim acc l = .ok x) :
    x.Normal ∧ ∀ v : Version, ∃ b, anyAccepts l v = .ok b ∧ x.contains v = (acc.contains v || b) := by
  induction l generalizing acc with
  | nil =>
    simp only [reduceAny, Except.ok.injEq] at h
    subst h
    exact ⟨hacc, fun v => ⟨false, by simp [anyAccepts], by simp⟩⟩
  | cons s l ihl =>
    simp only [reduceAny, bind, Except.bind] at h
    cases hy : toSet lim s with
    | error e => simp [hy] at h
    | ok y =>
      obtain ⟨y1, y2⟩ := ih s (by simp) y hy
      cases hz : acc.unionWith lim y with
      | error e => simp [hy, hz] at h
      | ok z =>
        obtain ⟨z2, z3⟩ := unionWith_ok hacc y1 hz
        simp only [hy, hz] at h
        obtain ⟨x1, x2⟩ := ihl (fun t ht => ih t (by simp [ht])) z2 h
        refine ⟨x1, fun v => ?_⟩
        obtain ⟨b, b1, b2⟩ := x2 v
        refine ⟨y.contains v || b, ?_, by rw [b2, contains_or z3 v, Bool.or_assoc]⟩
        cases hc : y.contains v <;> simp [anyAccepts, y2 v, hc, b1, bind, Except.bind]

theorem toSet_means {s : Specifier} (hs : s.Valid) : ∀ lim x, toSet lim s = .ok x → s.Means x := by
  induction hs with
  | never =>
    intro lim x h
    simp only [toSet, Except.ok.injEq] at h
    subst h
    exact ⟨trivial, fun v => by simp [accepts, VSet.contains]⟩
  | always =>
    intro lim x h
    simp only [toSet, Except.ok.injEq] at h
    subst h
    refine ⟨universal_normal, fun v => ?_⟩
    have : VSet.universal.contains v = true := by
      rw [contains_cov, universal_cov]; exact (cutAt_lt_top v _).ne
    simp [accepts, this]
  | one hv ht =>
    intro lim x h
    simp only [toSet] at h
    rcases op_view hv ht with ⟨s, h1, h2, h3⟩ | ⟨h1, -⟩
    · rw [h1] at h; injection h with h; subst h
      exact ⟨h2, fun v => by simpa only [accepts] using h3 v⟩
    · rw [h1] at h; cases h
  | any hl _ ih =>
    rename_i l _
    intro lim x h
    match l, hl, ih, h with
    | s :: l, _, ih, h =>
      simp only [toSet, bind, Except.bind] at h
      cases hy : toSet lim s with
      | error e => simp [hy] at h
      | ok y =>
        obtain ⟨y1, y2⟩ := ih s (by simp) lim y hy
        simp only [hy] at h
        obtain ⟨x1, x2⟩ := reduceAny_means (fun t ht => ih t (by simp [ht]) lim) y1 h
        refine ⟨x1, fun v => ?_⟩
        obtain ⟨b, b1, b2⟩ := x2 v
        rw [b2]
        cases hc : y.contains v <;> simp [accepts, anyAccepts, y2 v, hc, b1, bind, Except.bind]
  | all hl _ ih =>
    rename_i l _
    intro lim x h
    match l, hl, ih, h with
    | s :: l, _, ih, h =>
      simp only [toSet, bind, Except.bind] at h
      cases hy : toSet lim s with
      | error e => simp [hy] at h
      | ok y =>
        obtain ⟨y1, y2⟩ := ih s (by simp) lim y hy
        simp only [hy] at h
        obtain ⟨x1, x2⟩ := reduceAll_means (fun t ht => ih t (by simp [ht]) lim) y1 h
        refine ⟨x1, fun v => ?_⟩
        obtain ⟨b, b1, b2⟩ := x2 v
        rw [b2]
        cases hc : y.contains v <;> simp [accepts, allAccepts, y2 v, hc, b1, bind, Except.bind]

/-! ### from sets to specifiers -/

/-- The specifier of an item, as the code builds it. -/
def ofItem : Item → Specifier
  | .point v => one ⟨.doubleEqual, v⟩
  | .range ⟨none, none, _, _⟩ => always
  | .range ⟨some a, none, i, _⟩ => one ⟨if i then .greaterOrEqual else .greater, a⟩
  | .range ⟨none, some b, _, j⟩ => one ⟨if j then .lessOrEqual else .less, b⟩
  | .range ⟨some a, some b, i, j⟩ =>
    all [one ⟨if i then .greaterOrEqual else .greater, a⟩, one ⟨if j then .lessOrEqual else .less, b⟩]

theorem fromItem_eq {i : Item} (hi : i.Normal) : fromItem i = .ok (ofItem i) := by
  cases i with
  | point v => rfl
  | range r =>
    obtain ⟨mn, mx, x, y⟩ := r
    simp only [fromItem, tryRangeSimple, isEmpty_false hi, isPoint_range_false hi]
    cases hu : (Item.range ⟨mn, mx, x, y⟩).isUniversal with
    | true =>
      have := (isUniversal_iff hi).1 hu
      unfold universalItem at this
      cases this
      rfl
    | false =>
      cases mn with
      | none => cases mx with
        | none =>
          obtain ⟨g1, g2, -⟩ := hi
          obtain rfl : x = false := g1 rfl
          obtain rfl : y = false := g2 rfl
          exact absurd hu (by decide)
        | some b => cases y <;> rfl
      | some a => cases mx with
        | none => cases x <;> rfl
        | some b => cases x <;> cases y <;> rfl

theorem ofItem_toSet {i : Item} (hi : i.Normal) :
    ∃ s, (∀ lim, toSet lim (ofItem i) = .ok s) ∧ (ofItem i).Means s ∧ ∀ c, s.Cov c ↔ (VSet.item i).Cov c := by
  have hmin : ∀ (a : Version) (i : Bool), ∃ s, (∀ lim, toSet lim (one ⟨if i then .greaterOrEqual else .greater, a⟩) = .ok s) ∧
      (one ⟨if i then .greaterOrEqual else .greater, a⟩).Means s ∧ s = .item (.range ⟨some a, none, i, false⟩) := by
    intro a i
    have := simple_contains a
    cases i with
    | true => exact ⟨.item (.range ⟨some a, none, true, false⟩), fun _ => by simp only [toSet]; rfl, ⟨⟨by simp, by simp, by simp⟩, fun v => by rw [(this v).2.2.2]; simp only [accepts]; rfl⟩, rfl⟩
    | false => exact ⟨.item (.range ⟨some a, none, false, false⟩), fun _ => by simp only [toSet]; rfl, ⟨⟨by simp, by simp, by simp⟩, fun v => by rw [(this v).2.2.1]; simp only [accepts]; rfl⟩, rfl⟩
  have hmax : ∀ (a : Version) (i : Bool), ∃ s, (∀ lim, toSet lim (one ⟨if i then .lessOrEqual else .less, a⟩) = .ok s) ∧
      (one ⟨if i then .lessOrEqual else .less, a⟩).Means s ∧ s = .item (.range ⟨none, some a, false, i⟩) := by
    intro a i
    have := simple_contains a
    cases i with
    | true => exact ⟨.item (.range ⟨none, some a, false, true⟩), fun _ => by simp only [toSet]; rfl, ⟨⟨by simp, by simp, by simp⟩, fun v => by rw [(this v).2.1]; simp only [accepts]; rfl⟩, rfl⟩
    | false => exact ⟨.item (.range ⟨none, some a, false, false⟩), fun _ => by simp only [toSet]; rfl, ⟨⟨by simp, by simp, by simp⟩, fun v => by rw [(this v).1]; simp only [accepts]; rfl⟩, rfl⟩
  cases i with
  | point v =>
    refine ⟨.item (.point v), fun _ => by simp only [ofItem, toSet]; rfl, ⟨point_normal v, fun w => ?_⟩, fun c => Iff.rfl⟩
    rw [point_contains]; simp only [ofItem, accepts]; rfl
  | range r =>
    obtain ⟨mn, mx, x, y⟩ := r
    cases mn with
    | none => cases mx with
      | none =>
        refine ⟨.universal, fun _ => by simp [ofItem, toSet], toSet_means .always 0 _ (by simp [ofItem, toSet]), ?_⟩
        obtain ⟨g1, g2, -⟩ := hi
        obtain rfl : x = false := g1 rfl
        obtain rfl : y = false := g2 rfl
        exact fun c => Iff.rfl
      | some b =>
        obtain ⟨s, h1, h2, h3⟩ := hmax b y
        refine ⟨s, h1, h2, ?_⟩
        subst h3
        obtain ⟨g1, -, -⟩ := hi
        obtain rfl : x = false := g1 rfl
        exact fun c => Iff.rfl
    | some a => cases mx with
      | none =>
        obtain ⟨s, h1, h2, h3⟩ := hmin a x
        refine ⟨s, h1, h2, ?_⟩
        subst h3
        obtain ⟨-, g1, -⟩ := hi
        obtain rfl : y = false := g1 rfl
        exact fun c => Iff.rfl
      | some b =>
        obtain ⟨s, s1, s2, s3⟩ := hmin a x
        obtain ⟨t, t1, t2, t3⟩ := hmax b y
        obtain ⟨z, z1, z2, z3⟩ := intersection_spec s2.1 t2.1
        refine ⟨z, fun lim => ?_, ⟨z2, fun v => ?_⟩, fun c => ?_⟩
        · have h1 := s1 lim
          have h2 := t1 lim
          simp only [toSet] at h1 h2
          simp only [ofItem, toSet, reduceAll, h1, h2, z1, bind, Except.bind]
        · rw [contains_and z3 v]
          simp only [ofItem, accepts, allAccepts, bind, Except.bind]
          have h1 := s2.2 v
          have h2 := t2.2 v
          simp only [accepts] at h1 h2
          rw [h1, h2]
          cases s.contains v <;> cases t.contains v <;> rfl
        · rw [z3]
          subst s3; subst t3
          simp only [VSet.Cov, VSet.extract, cov_cons, cov_nil, or_false, Item.lo, Item.hi, Item.min, Item.max, Item.includeMin,
            Item.includeMax, Item.fields, loOf, hiOf, bot_le, true_and]
          constructor
          · rintro ⟨⟨h1, h2⟩, h3⟩; exact ⟨h1, h3⟩
          · rintro ⟨h1, h3⟩; exact ⟨⟨h1, lt_of_lt_of_le h3 le_top⟩, h3⟩

theorem mapM_fromItem {l : List Item} (h : AllNormal l) : l.mapM fromItem = .ok (l.map ofItem) := by
  induction l with
  | nil => rfl
  | cons i l ih =>
    rw [List.mapM_cons, fromItem_eq h.head, ih h.tail]
    rfl

/-- Uniting the sets of the items of a normal list. -/
theorem reduceAny_items {l : List Item} (hn : AllNormal l) : ∀ {done : List Item} {acc : VSet}, AllNormal done →
    Gaps (done ++ l) → acc.Normal → (∀ c, acc.Cov c ↔ Cov done c) →
    ∃ s, (∀ lim, reduceAny (lim + 2) acc (l.map ofItem) = .ok s) ∧ s.Normal ∧ (∀ c, s.Cov c ↔ Cov (done ++ l) c) ∧
      ∀ v : Version, ∃ b, anyAccepts (l.map ofItem) v = .ok b ∧ s.contains v = (acc.contains v || b) := by
  induction l with
  | nil =>
    intro done acc hd hg ha hc
    exact ⟨acc, fun lim => by simp [reduceAny], ha, fun c => by rw [hc]; simp, fun v => ⟨false, by simp [anyAccepts], by simp⟩⟩
  | cons i l ih =>
    intro done acc hd hg ha hc
    obtain ⟨y, y1, y2, y3⟩ := ofItem_toSet hn.head
    have hgd : Gaps done := by
      unfold Gaps at hg ⊢; exact (List.pairwise_append.1 hg).1
    have e1 := cov_ext ha.allNormal ha.gaps hd hgd hc
    have e2 := cov_ext y2.1.allNormal y2.1.gaps (ys := [i]) (by intro j hj; simp at hj; subst hj; exact hn.head)
      (by simp [Gaps]) y3
    have hbad : ¬ UnionBad acc y := by
      rintro ⟨hb, -⟩
      refine gaps_not_bad (ha.allNormal.append y2.1.allNormal) ?_ hb
      unfold Gaps
      refine List.pairwise_append.2 ⟨ha.gaps, y2.1.gaps, fun p hp q hq => ?_⟩
      have hp' : (p.lo, p.hi) ∈ done.map (fun i => (i.lo, i.hi)) := e1 ▸ List.mem_map.2 ⟨p, hp, rfl⟩
      have hq' : (q.lo, q.hi) ∈ [i].map (fun i => (i.lo, i.hi)) := e2 ▸ List.mem_map.2 ⟨q, hq, rfl⟩
      obtain ⟨p', hp', hpe⟩ := List.mem_map.1 hp'
      simp only [List.map_cons, List.map_nil, List.mem_singleton, Prod.mk.injEq] at hq' hpe
      rw [← hpe.2, hq'.1]
      unfold Gaps at hg
      exact (List.pairwise_append.1 hg).2.2 p' hp' i (by simp)
    obtain ⟨z, z1, z2, z3⟩ := (unionWith_spec ha y2.1).1 hbad
    have hcz : ∀ c, z.Cov c ↔ Cov (done ++ [i]) c := by
      intro c
      rw [z3, hc, y3]
      simp [Cov, VSet.Cov, VSet.extract, or_and_right, exists_or]
    obtain ⟨s, s1, s2, s3, s4⟩ := ih hn.tail (done := done ++ [i]) (acc := z)
      (hd.append (by intro j hj; simp at hj; subst hj; exact hn.head)) (by simpa using hg) z2 hcz
    refine ⟨s, fun lim => ?_, s2, fun c => by rw [s3]; simp, fun v => ?_⟩
    · simp only [List.map_cons, reduceAny, y1, z1, bind, Except.bind]; exact s1 lim
    · obtain ⟨b, b1, b2⟩ := s4 v
      refine ⟨y.contains v || b, ?_, by rw [b2, contains_or z3 v, Bool.or_assoc]⟩
      cases hcc : y.contains v <;> simp [anyAccepts, y2.2 v, hcc, b1, bind, Except.bind]

theorem fromSet_spec {x : VSet} (hx : x.Normal) :
    ∃ t, (∀ lim, fromSet lim x = .ok t) ∧ (∀ v : Version, t.accepts v = .ok (x.contains v)) ∧
      ∃ y, (∀ lim, toSet (lim + 2) t = .ok y) ∧ y.Normal ∧ ∀ c, y.Cov c ↔ x.Cov c := by
  have hcont : ∀ y : VSet, (∀ c, y.Cov c ↔ x.Cov c) → ∀ v : Version, y.contains v = x.contains v := by
    intro y h v; rw [Bool.eq_iff_iff, contains_cov, contains_cov, h]
  cases x with
  | empty =>
    exact ⟨never, fun lim => rfl, fun v => by simp [accepts, VSet.contains], .empty, fun lim => by simp [toSet], trivial, fun c => Iff.rfl⟩
  | item i =>
    obtain ⟨y, y1, y2, y3⟩ := ofItem_toSet hx
    exact ⟨ofItem i, fun lim => fromItem_eq hx, fun v => by rw [y2.2 v, hcont _ y3], y, fun lim => y1 _, y2.1, y3⟩
  | union items =>
    obtain ⟨z, z1, z2, z3⟩ := complement_spec hx
    by_cases hz : ∃ v, z = .item (.point v)
    · obtain ⟨v, rfl⟩ := hz
      obtain ⟨l, l1, l2, l3⟩ := complement_point v
      have hcov : ∀ c, (VSet.union l).Cov c ↔ (VSet.union items).Cov c := by
        intro c
        rw [l3, z3]
        constructor
        · rintro ⟨h1, h2⟩; by_contra h; exact h2 ⟨h1, h⟩
        · exact fun h => ⟨cov_lt_top h, fun h' => h'.2 h⟩
      refine ⟨one ⟨.notEqual, v⟩, fun lim => ?_, fun w => ?_, .union l, fun lim => ?_, l2, hcov⟩
      · simp [fromSet, tryExcludeVersion, VSet.excludeVersion, z1, unpinVersion, Operator.create, bind, Except.bind]
      · rw [← hcont _ hcov w, complement_contains l3, point_contains]; simp [accepts]; rfl
      · simp [toSet, Operator.toSet, OpType.translate, Version.translateNotEqual, Version.translateEqual, l1, bind, Except.bind]
    · have hex : ∀ lim, tryExcludeVersion lim items = .ok none := by
        intro lim
        simp only [tryExcludeVersion, VSet.excludeVersion, z1, bind, Except.bind]
        cases z with
        | empty => rfl
        | union _ => rfl
        | item i => cases i with
          | range _ => rfl
          | point v => exact absurd ⟨v, rfl⟩ hz
      have hg : Gaps items := VSet.Normal.gaps (s := .union items) hx
      obtain ⟨hl, hn, -⟩ := hx
      have hn : AllNormal items := hn
      match items, hl, hn, hg, hex, hcont with
      | i :: j :: items, _, hn, hg, hex, hcont =>
        obtain ⟨y, y1, y2, y3⟩ := ofItem_toSet hn.head
        obtain ⟨s, s1, s2, s3, s4⟩ := reduceAny_items hn.tail (done := [i]) (acc := y)
          (by intro j hj; simp at hj; subst hj; exact hn.head) hg y2.1 y3
        refine ⟨any ((i :: j :: items).map ofItem), fun lim => ?_, fun v => ?_, s, fun lim => ?_, s2, s3⟩
        · simp only [fromSet, hex, mapM_fromItem hn, bind, Except.bind, anyOf, List.map_cons, mkAny, checkSpecifiers]
        · rw [← hcont _ s3 v]
          obtain ⟨b, b1, b2⟩ := s4 v
          rw [b2]
          cases hcc : y.contains v <;> simp [accepts, anyAccepts, y2.2 v, hcc, bind, Except.bind]
          simpa [anyAccepts, bind, Except.bind] using b1
        · simp only [List.map_cons, toSet, y1, bind, Except.bind]
          exact s1 lim

/-! ### equal sets give equal specifiers -/

theorem range_not_point {r : VRange} {v : Version} (hr : (Item.range r).Normal) (h1 : (Item.range r).lo = cutAt v false)
    (h2 : (Item.range r).hi = cutAt v true) : False := by
  obtain ⟨mn, mx, x, y⟩ := r
  cases mn with
  | none => exact absurd h1 (bot_lt_cutAt v false).ne
  | some a => cases mx with
    | none => exact absurd h2 (cutAt_lt_top v true).ne'
    | some b =>
      have h3 := (vlt_iff _ _).1 (hr.2.2 a b rfl rfl)
      have h1 : cutAt a (!x) = cutAt v false := h1
      have h2 : cutAt b y = cutAt v true := h2
      rw [cutAt_eq] at h1 h2
      rw [h1.1, h2.1] at h3
      exact lt_irrefl _ h3

theorem eq_point_of_cov {z : VSet} {v : Version} (hz : z.Normal) (h : ∀ c, z.Cov c ↔ c = cut v) : ∃ w, z = .item (.point w) := by
  have hp : (VSet.item (.point v)).Normal := point_normal v
  have := cov_ext hz.allNormal hz.gaps hp.allNormal hp.gaps (fun c => by
    have h1 := h c
    have h2 := point_cov v c
    unfold VSet.Cov at h1 h2
    rw [h1, h2])
  have he := hz.extract.2.2
  generalize z.extract = l at this he
  match l, this with
  | [i], this =>
    subst he
    simp only [List.map_cons, List.map_nil, VSet.extract, List.cons.injEq, Prod.mk.injEq, and_true] at this
    cases i with
    | point w => exact ⟨w, rfl⟩
    | range r => exact (range_not_point hz this.1 this.2).elim
  | i :: j :: l, this => simp [VSet.extract] at this

theorem ofItem_congr {i j : Item} (hi : i.Normal) (hj : j.Normal) (h1 : i.lo = j.lo) (h2 : i.hi = j.hi) :
    (ofItem i).eq (ofItem j) = true := by
  cases i with
  | point v => cases j with
    | point w =>
      have h1 : cutAt v false = cutAt w false := h1
      rw [cutAt_eq] at h1
      simp [ofItem, Specifier.eq, Operator.eq, veq_iff, h1.1, OpType.eq]
    | range r => exact (range_not_point hj h1.symm h2.symm).elim
  | range r => cases j with
    | point w => exact (range_not_point hi h1 h2).elim
    | range r' =>
      obtain ⟨mn, mx, x, y⟩ := r
      obtain ⟨mn', mx', x', y'⟩ := r'
      have k1 : loOf mn x = loOf mn' x' := h1
      have k2 : hiOf mx y = hiOf mx' y' := h2
      have n1 : ∀ a b, (⊥ : Cut) ≠ cutAt a b := fun a b => (bot_lt_cutAt a b).ne
      have n2 : ∀ a b, (⊤ : Cut) ≠ cutAt a b := fun a b => (cutAt_lt_top a b).ne'
      cases mn <;> cases mn' <;> cases mx <;> cases mx' <;>
        simp [loOf, hiOf, cutAt_eq, n1, n2, (n1 _ _).symm, (n2 _ _).symm] at k1 k2 <;>
        simp [ofItem, Specifier.eq, Specifier.eqList, Operator.eq, veq_iff, k1, k2, OpType.eq]

theorem ofItems_congr : ∀ {xs ys : List Item}, AllNormal xs → AllNormal ys →
    xs.map (fun i => (i.lo, i.hi)) = ys.map (fun i => (i.lo, i.hi)) → eqList (xs.map ofItem) (ys.map ofItem) = true := by
  intro xs
  induction xs with
  | nil => intro ys _ _ h; cases ys with
    | nil => rfl
    | cons _ _ => cases h
  | cons x xs ih =>
    intro ys hx hy h
    cases ys with
    | nil => cases h
    | cons y ys =>
      simp only [List.map_cons, List.cons.injEq, Prod.mk.injEq] at h
      simp only [List.map_cons, eqList, Bool.and_eq_true]
      exact ⟨ofItem_congr hx.head hy.head h.1.1 h.1.2, ih hx.tail hy.tail h.2⟩

/-- What `fromSet` gives, in terms of the items. -/
theorem fromSet_view {x : VSet} (hx : x.Normal) :
    (x = .empty ∧ ∀ lim, fromSet lim x = .ok never) ∨
    (∃ i, x = .item i ∧ ∀ lim, fromSet lim x = .ok (ofItem i)) ∨
    (∃ v, 2 ≤ x.extract.length ∧ (∀ c, x.Cov c ↔ c ≠ ⊤ ∧ c ≠ cut v) ∧
      ∀ lim, fromSet lim x = .ok (one ⟨.notEqual, v⟩)) ∨
    (2 ≤ x.extract.length ∧ (∀ v, ¬ ∀ c, x.Cov c ↔ c ≠ ⊤ ∧ c ≠ cut v) ∧
      ∀ lim, fromSet lim x = .ok (any (x.extract.map ofItem))) := by
  cases x with
  | empty => exact .inl ⟨rfl, fun _ => rfl⟩
  | item i => exact .inr (.inl ⟨i, rfl, fun _ => fromItem_eq hx⟩)
  | union items =>
    obtain ⟨z, z1, z2, z3⟩ := complement_spec hx
    by_cases hz : ∃ v, z = .item (.point v)
    · obtain ⟨v, rfl⟩ := hz
      refine .inr (.inr (.inl ⟨v, hx.1, fun c => ?_, fun lim => ?_⟩))
      · have := z3 c
        rw [point_cov] at this
        rw [Ne, Ne, this]
        constructor
        · exact fun h => ⟨cov_lt_top h, fun h' => h'.2 h⟩
        · rintro ⟨h1, h2⟩; by_contra h; exact h2 ⟨h1, h⟩
      · simp [fromSet, tryExcludeVersion, VSet.excludeVersion, z1, unpinVersion, Operator.create, bind, Except.bind]
    · refine .inr (.inr (.inr ⟨hx.1, fun v hv => hz (eq_point_of_cov (v := v) z2 fun c => ?_), fun lim => ?_⟩))
      · rw [z3, hv]
        constructor
        · rintro ⟨h1, h2⟩; by_contra h; exact h2 ⟨h1, h⟩
        · rintro rfl; exact ⟨(cutAt_lt_top v _).ne, fun h => h.2 rfl⟩
      · obtain ⟨hl, hn, -⟩ := hx
        have hn : AllNormal items := hn
        have hex : tryExcludeVersion lim items = .ok none := by
          simp only [tryExcludeVersion, VSet.excludeVersion, z1, bind, Except.bind]
          cases z with
          | empty => rfl
          | union _ => rfl
          | item i => cases i with
            | range _ => rfl
            | point v => exact absurd ⟨v, rfl⟩ hz
        match items, hl, hn, hex with
        | i :: j :: items, _, hn, hex =>
          simp only [fromSet, hex, mapM_fromItem hn, bind, Except.bind, anyOf, List.map_cons, mkAny, checkSpecifiers, VSet.extract]

theorem fromSet_congr {x y : VSet} (hx : x.Normal) (hy : y.Normal) (h : ∀ c, x.Cov c ↔ y.Cov c) :
    ∃ s t, (∀ lim, fromSet lim x = .ok s) ∧ (∀ lim, fromSet lim y = .ok t) ∧ s.eq t = true := by
  have hl := cov_ext hx.allNormal hx.gaps hy.allNormal hy.gaps h
  have hlen : x.extract.length = y.extract.length := by simpa using congrArg List.length hl
  have e0 : VSet.empty.extract = [] := rfl
  have e1 : ∀ i, (VSet.item i).extract = [i] := fun _ => rfl
  rcases fromSet_view hx with ⟨rfl, f1⟩ | ⟨i, rfl, f1⟩ | ⟨v, f0, f1, f2⟩ | ⟨f0, f1, f2⟩ <;>
    rcases fromSet_view hy with ⟨rfl, g1⟩ | ⟨j, rfl, g1⟩ | ⟨w, g0, g1, g2⟩ | ⟨g0, g1, g2⟩ <;>
    (try simp only [e0, e1, List.length_nil, List.length_singleton] at hlen) <;> try omega
  · exact ⟨_, _, f1, g1, rfl⟩
  · simp only [VSet.extract, List.map_cons, List.map_nil, List.cons.injEq, Prod.mk.injEq, and_true] at hl
    exact ⟨_, _, f1, g1, ofItem_congr hx hy hl.1 hl.2⟩
  · refine ⟨_, _, f2, g2, ?_⟩
    have := h (cut v)
    rw [f1, g1] at this
    have hk : cut v = cut w := by
      by_contra hne
      exact (this.2 ⟨(cutAt_lt_top v _).ne, hne⟩).2 rfl
    unfold cut at hk
    rw [cutAt_eq] at hk
    simp [Specifier.eq, Operator.eq, OpType.eq, veq_iff, hk.1]
  · exact absurd (fun c => by rw [← h, f1]) (g1 v)
  · exact absurd (fun c => by rw [h, g1]) (f1 w)
  · exact ⟨_, _, f2, g2, by simp only [Specifier.eq]; exact ofItems_congr hx.allNormal hy.allNormal hl⟩

end Specifier
end Verif
