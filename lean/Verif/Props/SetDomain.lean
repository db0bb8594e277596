import Verif.Props.SetStrings
/-!
# C79: when `parse_version_set` returns
-/

namespace Verif
open Specifier

/-! ### Joining by a pipe, exactly -/

theorem reduceAny_snoc (lim : Nat) (b : Specifier) : ∀ (l : List Specifier) (acc : VSet),
    reduceAny lim acc (l ++ [b]) = (do let x ← reduceAny lim acc l; let y ← b.toSet lim; x.unionWith lim y)
  | [], acc => by
    simp only [List.nil_append, reduceAny, bind, Except.bind]
    cases b.toSet lim with
    | error e => rfl
    | ok y => simp only; cases acc.unionWith lim y <;> rfl
  | a :: l, acc => by
    simp only [List.cons_append, reduceAny, bind, Except.bind]
    cases a.toSet lim with
    | error e => rfl
    | ok y =>
      simp only
      cases acc.unionWith lim y with
      | error e => rfl
      | ok z => simpa only [bind, Except.bind] using reduceAny_snoc lim b l z

theorem ofAny_snoc (lim : Nat) (l : List (List Operator)) (hl : l ≠ []) (g : List Operator) :
    (ofAny (l ++ [g])).toSet lim = (do let x ← (ofAny l).toSet lim; let y ← (ofAll g).toSet lim; x.unionWith lim y) := by
  match l, hl with
  | [a], _ =>
    simp only [ofAny, List.cons_append, List.nil_append, List.map_cons, List.map_nil, toSet, reduceAny, bind, Except.bind]
    cases (ofAll a).toSet lim with
    | error e => rfl
    | ok x =>
      simp only
      cases (ofAll g).toSet lim with
      | error e => rfl
      | ok y => simp only; cases x.unionWith lim y <;> rfl
  | a :: b :: l, _ =>
    simp only [ofAny, List.cons_append, List.map_cons, List.map_append, List.map_nil, toSet]
    simp only [bind, Except.bind]
    cases (ofAll a).toSet lim with
    | error e => rfl
    | ok x =>
      have := reduceAny_snoc lim (ofAll g) (ofAll b :: l.map ofAll) x
      simpa only [bind, Except.bind, List.cons_append] using this

theorem reduceAll_snoc (lim : Nat) (b : Specifier) : ∀ (l : List Specifier) (acc : VSet),
    reduceAll lim acc (l ++ [b]) = (do let x ← reduceAll lim acc l; let y ← b.toSet lim; x.intersection lim y)
  | [], acc => by
    simp only [List.nil_append, reduceAll, bind, Except.bind]
    cases b.toSet lim with
    | error e => rfl
    | ok y => simp only; cases acc.intersection lim y <;> rfl
  | a :: l, acc => by
    simp only [List.cons_append, reduceAll, bind, Except.bind]
    cases a.toSet lim with
    | error e => rfl
    | ok y =>
      simp only
      cases acc.intersection lim y with
      | error e => rfl
      | ok z => simpa only [bind, Except.bind] using reduceAll_snoc lim b l z

theorem ofAll_snoc (lim : Nat) (l : List Operator) (hl : l ≠ []) (o : Operator) :
    (ofAll (l ++ [o])).toSet lim = (do let x ← (ofAll l).toSet lim; let y ← o.toSet lim; x.intersection lim y) := by
  match l, hl with
  | [a], _ =>
    simp only [ofAll, List.cons_append, List.nil_append, List.map_cons, List.map_nil, toSet, reduceAll, bind, Except.bind]
    cases a.toSet lim with
    | error e => rfl
    | ok x =>
      simp only
      cases o.toSet lim with
      | error e => rfl
      | ok y => simp only; cases x.intersection lim y <;> rfl
  | a :: b :: l, _ =>
    simp only [ofAll, List.cons_append, List.map_cons, List.map_append, List.map_nil, toSet]
    simp only [bind, Except.bind]
    cases a.toSet lim with
    | error e => rfl
    | ok x =>
      have := reduceAll_snoc lim (.one o) (.one b :: l.map .one) x
      simpa only [bind, Except.bind, List.cons_append, toSet] using this

theorem AnyOf.ne_nil {s : PyStr} {l : List (List Operator)} (h : AnyOf s l) : l ≠ [] := by
  obtain ⟨a, as, -, h⟩ := h
  rintro rfl; cases h

theorem AllOf.ne_nil {s : PyStr} {l : List Operator} (h : AllOf s l) : l ≠ [] := by
  obtain ⟨a, as, -, h⟩ := h
  rintro rfl; cases h

/-- C79. `parse_version_set(s | t)` is computed as the union of `parse_version_set(s)` and `parse_version_set(t)` if `t` has no
pipe: the same result, the same error. -/
theorem C79_or (lim : Nat) (s t : PyStr) (x y : Specifier) (hs : Specifier.parse s = .ok x) (ht : Specifier.parse t = .ok y) (pt : '|' ∉ t)
    (p : PyStr) (hp : p = "|".toList ∨ p = "||".toList) :
    VSet.parse lim (s ++ p ++ t) = (do let a ← VSet.parse lim s; let b ← VSet.parse lim t; a.unionWith lim b) := by
  obtain ⟨l, hl, rfl⟩ := (Specifier.parse_ok_iff' s x).1 hs
  obtain ⟨m, hm, rfl⟩ := (Specifier.parse_ok_iff' t y).1 ht
  obtain ⟨g, rfl, hg⟩ := hm.single (fun h => pt (List.mem_filter.1 h).1)
  have hz : Specifier.parse (s ++ p ++ t) = .ok (ofAny (l ++ [g])) := by
    refine (Specifier.parse_ok_iff' _ _).2 ⟨_, ?_, rfl⟩
    rcases hp with rfl | rfl
    · have e : ("|".toList).filter (fun c => !isSpace c) = ['|'] := by decide +kernel
      simp only [List.filter_append, e]; exact hl.join hm false
    · have e : ("||".toList).filter (fun c => !isSpace c) = ['|', '|'] := by decide +kernel
      simp only [List.filter_append, e]; exact hl.join hm true
  unfold VSet.parse
  rw [hz, hs, ht]
  exact ofAny_snoc lim l hl.ne_nil g

example : VSet.parse 5 ("< 1".toList ++ "||".toList ++ ">= 2".toList) =
    .ok (.union [exRange none (some [1]) false, exRange (some [2]) none]) := by decide +kernel

/-- C79. `parse_version_set(s, t)` is computed as the intersection of `parse_version_set(s)` and `parse_version_set(t)` if `s` has
no pipe and `t` is a single clause. -/
theorem C79_and (lim : Nat) (s t : PyStr) (x y : Specifier) (hs : Specifier.parse s = .ok x) (ht : Specifier.parse t = .ok y) (ps : '|' ∉ s)
    (pt : '|' ∉ t) (ct : ',' ∉ t) :
    VSet.parse lim (s ++ ",".toList ++ t) = (do let a ← VSet.parse lim s; let b ← VSet.parse lim t; a.intersection lim b) := by
  obtain ⟨l, hl, rfl⟩ := (Specifier.parse_ok_iff' s x).1 hs
  obtain ⟨m, hm, rfl⟩ := (Specifier.parse_ok_iff' t y).1 ht
  obtain ⟨l, rfl, hl'⟩ := hl.single (fun h => ps (List.mem_filter.1 h).1)
  obtain ⟨m, rfl, hm'⟩ := hm.single (fun h => pt (List.mem_filter.1 h).1)
  have hz : Specifier.parse (s ++ ",".toList ++ t) = .ok (ofAny [l ++ m]) := by
    refine (Specifier.parse_ok_iff' _ _).2 ⟨_, ?_, rfl⟩
    have e : (",".toList).filter (fun c => !isSpace c) = [','] := by decide +kernel
    simpa only [List.filter_append, e, List.append_assoc, List.singleton_append] using (hl'.join hm').any
  have one : ∃ o, m = [o] := by
    obtain ⟨a, as, ha, h1⟩ := hm'
    cases as with
    | nil =>
      cases h1 with
      | cons h t => cases t; exact ⟨_, rfl⟩
    | cons b as =>
      have : ',' ∈ t.filter (fun c => !isSpace c) := by rw [ha]; simp
      exact absurd (List.mem_filter.1 this).1 ct
  obtain ⟨o, rfl⟩ := one
  unfold VSet.parse
  rw [hz, hs, ht]
  exact ofAll_snoc lim l hl'.ne_nil o

example : VSet.parse 5 (">= 1".toList ++ ",".toList ++ "< 2".toList) = .ok (.item (exRange (some [1]) (some [2]))) := by decide +kernel

/-- C79. So `parse_version_set(s | t)` returns iff both parts do and the union does (C22); the only other outcome then is
`RecursionError`. -/
theorem C79_or_returns (lim : Nat) (s t : PyStr) (x y : VSet) (hs : VSet.parse lim s = .ok x) (ht : VSet.parse lim t = .ok y) (pt : '|' ∉ t)
    (hl : 2 ≤ lim) :
    ((∃ z, VSet.parse lim (s ++ "|".toList ++ t) = .ok z) ↔
      ¬ Clash (fun i => x.Has i ∨ y.Has i) ∨ ((∃ r, x = .item (.range r)) ∧ ∃ v, y = .item (.point v))) ∧
    ((¬ ∃ z, VSet.parse lim (s ++ "|".toList ++ t) = .ok z) → VSet.parse lim (s ++ "|".toList ++ t) = .error .recursionError) := by
  obtain ⟨nx, p, hp, -⟩ := C53_set lim s x hs
  obtain ⟨ny, q, hq, -⟩ := C53_set lim t y ht
  rw [C79_or lim s t p q hp hq pt _ (.inl rfl), hs, ht]
  obtain ⟨k, rfl⟩ : ∃ k, lim = k + 2 := ⟨lim - 2, by omega⟩
  change ((∃ z, x.unionWith (k + 2) y = .ok z) ↔ _) ∧ ((¬ ∃ z, x.unionWith (k + 2) y = .ok z) → x.unionWith (k + 2) y = .error .recursionError)
  by_cases h : ¬ Clash (fun i => x.Has i ∨ y.Has i) ∨ ((∃ r, x = .item (.range r)) ∧ ∃ v, y = .item (.point v))
  · obtain ⟨u, hu⟩ := C22_union_returns x y nx ny h
    have : ∃ z, x.unionWith (k + 2) y = .ok z := ⟨u, hu k⟩
    exact ⟨⟨fun _ => h, fun _ => this⟩, fun h' => absurd this h'⟩
  · push Not at h
    have hd := C22_union_diverges x y nx ny h.1 (fun hx => by obtain ⟨v, hv⟩ := hx.2; exact h.2 hx.1 v hv) (k + 2)
    refine ⟨⟨?_, ?_⟩, fun _ => hd⟩
    · rintro ⟨z, hz⟩; rw [hd] at hz; cases hz
    · rintro (h' | ⟨h1, v, h2⟩)
      · exact absurd h.1 h'
      · exact absurd h2 (h.2 h1 v)

example : VSet.parse 5 ("== 1".toList ++ "|".toList ++ "> 1".toList) = .error .recursionError ∧
    VSet.parse 5 ("> 1".toList ++ "|".toList ++ "== 1".toList) = .ok (.item (exRange (some [1]) none)) := by decide +kernel

/-! ### Requirements that always have a set -/

/-- No item ends with an included version. -/
private def RO (s : VSet) : Prop := ∀ v : Version, s.Cov (cutAt v false) → s.Cov (cutAt v true)
/-- No item starts after an excluded version. -/
private def LC (s : VSet) : Prop := ∀ v : Version, s.Cov (cutAt v true) → s.Cov (cutAt v false)

private theorem hi_not_between (v : Version) (i : Item) (h1 : cutAt v false < i.hi) (h2 : i.hi < cutAt v true) : False := by
  unfold Item.hi hiOf at *
  split at h1
  · rename_i h; rw [h] at h2; exact absurd h2 (not_lt_of_ge le_top)
  · rename_i w h
    rw [h] at h2
    simp only [cutAt_lt] at h1 h2
    rcases h1 with h1 | h1 <;> rcases h2 with h2 | h2
    · exact lt_asymm h1 h2
    · exact h1.ne' h2.1
    · exact h2.ne' h1.1
    · simp [h1.2.2] at h2

private theorem gap_cases {l : List Item} (h : Gaps l) {a b : Item} (ha : a ∈ l) (hb : b ∈ l) : a = b ∨ a.hi < b.lo ∨ b.hi < a.lo := by
  induction l with
  | nil => cases ha
  | cons x l ih =>
    obtain ⟨h1, h2⟩ := List.pairwise_cons.1 h
    rcases List.mem_cons.1 ha with rfl | ha' <;> rcases List.mem_cons.1 hb with rfl | hb'
    · exact .inl rfl
    · exact .inr (.inl (h1 _ hb'))
    · exact .inr (.inr (h1 _ ha'))
    · exact ih h2 ha' hb'

private theorem no_point {s : VSet} (hn : s.Normal) {p : Version} (h : s.Cov (cutAt p false) → s.Cov (cutAt p true)) : ¬ s.Has (.point p) := by
  intro hp
  rw [has_iff] at hp
  have e1 : (Item.point p).lo = cutAt p false := rfl
  have e2 : (Item.point p).hi = cutAt p true := rfl
  have lt : cutAt p false < cutAt p true := (cutAt_lt _ _ _ _).2 (.inr ⟨rfl, rfl, rfl⟩)
  obtain ⟨j, hj, j1, j2⟩ := h ⟨_, hp, e1.le, lt.trans_eq e2.symm⟩
  rcases gap_cases hn.gaps hp hj with rfl | h' | h'
  · exact absurd j2 (by rw [e2]; exact lt_irrefl _)
  · rw [e2] at h'; exact absurd j1 (not_le_of_gt h')
  · rw [e1] at h'; exact absurd (j2.trans h') (not_lt_of_gt lt)

private theorem no_open {s : VSet} (hn : s.Normal) (r : VRange) (hr : s.Has (.range r)) (m : Version) (hm : r.min = some m)
    (h : s.Cov (cutAt m true) → s.Cov (cutAt m false)) : r.includeMin = true := by
  cases hi : r.includeMin with
  | true => rfl
  | false =>
    exfalso
    rw [has_iff] at hr
    have e1 : (Item.range r).lo = cutAt m true := by simp [Item.lo, loOf, Item.min, Item.includeMin, Item.fields, hm, hi]
    have lt := (hn.allNormal _ hr).lo_lt_hi
    obtain ⟨j, hj, j1, j2⟩ := h ⟨_, hr, e1.le, e1 ▸ lt⟩
    have lt' : cutAt m false < cutAt m true := (cutAt_lt _ _ _ _).2 (.inr ⟨rfl, rfl, rfl⟩)
    rcases gap_cases hn.gaps hr hj with rfl | h' | h'
    · exact absurd j1 (by rw [e1]; exact not_le_of_gt lt')
    · exact absurd (((e1 ▸ lt).trans h').trans_le j1) (not_lt_of_gt lt')
    · exact hi_not_between m j j2 (h'.trans_eq e1)

private theorem ro_range (mn mx : Option Version) (a : Bool) : RO (.item (.range ⟨mn, mx, a, false⟩)) := by
  rintro v ⟨i, hi, h1, h2⟩
  obtain rfl : i = _ := by simpa [VSet.extract] using hi
  refine ⟨_, hi, h1.trans ((cutAt_lt _ _ _ _).2 (.inr ⟨rfl, rfl, rfl⟩)).le, ?_⟩
  simp only [Item.hi, hiOf, Item.max, Item.includeMax, Item.fields] at h2 ⊢
  cases mx with
  | none => exact cutAt_lt_top _ _
  | some w => simpa [cutAt_lt] using h2

private theorem lc_range (mn mx : Option Version) (a b : Bool) (h : ∀ m, mn = some m → a = true) : LC (.item (.range ⟨mn, mx, a, b⟩)) := by
  rintro v ⟨i, hi, h1, h2⟩
  obtain rfl : i = _ := by simpa [VSet.extract] using hi
  refine ⟨_, hi, ?_, ((cutAt_lt _ _ _ _).2 (.inr ⟨rfl, rfl, rfl⟩)).trans h2⟩
  simp only [Item.lo, loOf, Item.min, Item.includeMin, Item.fields] at h1 ⊢
  cases mn with
  | none => exact bot_le
  | some w => rw [h w rfl] at h1 ⊢; simpa [cutAt_le] using h1

private theorem lc_point (p : Version) : LC (.item (.point p)) := by
  intro v h
  rw [point_cov] at h
  exact absurd ((cutAt_eq _ _ _ _).1 h).2 (by simp)

private theorem ro_complement {a s : VSet} (h : LC a) (hs : ∀ c, s.Cov c ↔ c ≠ ⊤ ∧ ¬ a.Cov c) : RO s := by
  intro v hv
  rw [hs] at hv ⊢
  exact ⟨(cutAt_lt_top _ _).ne, fun h' => hv.2 (h v h')⟩

private theorem lc_complement {a s : VSet} (h : RO a) (hs : ∀ c, s.Cov c ↔ c ≠ ⊤ ∧ ¬ a.Cov c) : LC s := by
  intro v hv
  rw [hs] at hv ⊢
  exact ⟨(cutAt_lt_top _ _).ne, fun h' => hv.2 (h v h')⟩

/-- Operators that accept no version up to and including a last one. -/
def OpType.NoLast (t : OpType) : Prop := t ≠ .doubleEqual ∧ t ≠ .equal ∧ t ≠ .lessOrEqual
/-- Operators that do not start right after a version. -/
def OpType.NoAfter (t : OpType) : Prop := t ≠ .greater ∧ t ≠ .notEqual

private theorem op_shape {o : Operator} (hv : o.Valid) (hb : ¬ o.Broken) :
    ∃ x, (∀ lim, o.toSet lim = .ok x) ∧ x.Normal ∧ (o.type.NoLast → RO x) ∧ (o.type.NoAfter → LC x) := by
  obtain ⟨x, hx⟩ := (C16_failure o hv 0).1 hb
  have nx : x.Normal := by
    rcases op_view hv.version hv.tildeEqual with ⟨s, h1, h2, -⟩ | ⟨h1, -⟩
    · have := h1 0; rw [hx] at this; cases this; exact h2
    · have := h1 0; rw [hx] at this; cases this
  refine ⟨x, hx, nx, ?_⟩
  have h := hx 0
  obtain ⟨t, v⟩ := o
  have window : ∀ {f : Version → Except PyErr Version},
      (do .ok (VSet.item (← Item.mkRange (some v) (some (← f v)) true false)) : Except PyErr VSet) = .ok x → RO x ∧ LC x := by
    intro f h
    cases hw : f v with
    | error e => rw [hw] at h; cases h
    | ok w =>
      rw [hw] at h
      simp only [bind, Except.bind, mkRange_window] at h
      split at h
      · rename_i h'; split at h' <;> simp_all
      · rename_i h'; split at h'
        · cases h'
        · cases h'; cases h
          exact ⟨ro_range _ _ _, lc_range _ _ _ _ (by simp)⟩
  have wild : ∀ {y : VSet}, v.translateWildcardEqual = .ok y → RO y ∧ LC y := by
    intro y h
    unfold Version.translateWildcardEqual at h
    cases hw : v.nextWildcardBreaking with
    | error e => rw [hw] at h; cases h
    | ok w =>
      rw [hw] at h
      cases w with
      | none => cases h; exact ⟨ro_range _ _ _, lc_range _ _ _ _ (by simp)⟩
      | some w =>
        simp only [bind, Except.bind, mkRange_window] at h
        split at h
        · rename_i h'; split at h' <;> simp_all
        · rename_i h'; split at h'
          · cases h'
          · cases h'; cases h
            exact ⟨ro_range _ _ _, lc_range _ _ _ _ (by simp)⟩
  cases t with
  | tildeEqual => exact (window h).imp (fun h _ => h) (fun h _ => h)
  | caret => exact (window h).imp (fun h _ => h) (fun h _ => h)
  | tilde => exact (window h).imp (fun h _ => h) (fun h _ => h)
  | wildcardDoubleEqual => exact (wild h).imp (fun h _ => h) (fun h _ => h)
  | wildcardEqual => exact (wild h).imp (fun h _ => h) (fun h _ => h)
  | doubleEqual => cases h; exact ⟨fun h => absurd rfl h.1, fun _ => lc_point _⟩
  | equal => cases h; exact ⟨fun h => absurd rfl h.2.1, fun _ => lc_point _⟩
  | less =>
    replace h : Version.translateLess v = .ok x := h
    rw [Version.translateLess, mkRange_ok (by simp) (by simp) (show loOf none _ < hiOf (some v) _ from bot_lt_cutAt _ _)] at h
    cases h
    exact ⟨fun _ => ro_range _ _ _, fun _ => lc_range _ _ _ _ (by simp)⟩
  | lessOrEqual =>
    replace h : Version.translateLessOrEqual v = .ok x := h
    rw [Version.translateLessOrEqual, mkRange_ok (by simp) (by simp) (show loOf none _ < hiOf (some v) _ from bot_lt_cutAt _ _)] at h
    cases h
    exact ⟨fun h => absurd rfl h.2.2, fun _ => lc_range _ _ _ _ (by simp)⟩
  | greater =>
    replace h : Version.translateGreater v = .ok x := h
    rw [Version.translateGreater, mkRange_ok (by simp) (by simp) (show loOf (some v) _ < hiOf none _ from cutAt_lt_top _ _)] at h
    cases h
    exact ⟨fun _ => ro_range _ _ _, fun h => absurd rfl h.1⟩
  | greaterOrEqual =>
    replace h : Version.translateGreaterOrEqual v = .ok x := h
    rw [Version.translateGreaterOrEqual, mkRange_ok (by simp) (by simp) (show loOf (some v) _ < hiOf none _ from cutAt_lt_top _ _)] at h
    cases h
    exact ⟨fun _ => ro_range _ _ _, fun _ => lc_range _ _ _ _ (by simp)⟩
  | notEqual =>
    replace h : Version.translateNotEqual 0 v = .ok x := h
    obtain ⟨s, s1, -, s3⟩ := complement_spec (a := .item (.point v)) (by trivial)
    simp only [Version.translateNotEqual, Version.translateEqual, s1, bind, Except.bind] at h
    split at h
    · cases h
      exact ⟨fun _ => ro_complement (lc_point _) s3, fun h => absurd rfl h.2⟩
    · cases h
  | wildcardNotEqual =>
    replace h : Version.translateWildcardNotEqual 0 v = .ok x := h
    rcases wildcard_view hv.version with ⟨y, y1, y2, -⟩ | ⟨-, -, y3⟩
    · obtain ⟨s, s1, -, s3⟩ := complement_spec y2
      have hs : RO s ∧ LC s := ⟨ro_complement (wild y1).2 s3, lc_complement (wild y1).1 s3⟩
      simp only [Version.translateWildcardNotEqual, y1, s1, bind, Except.bind] at h
      split at h
      · cases h; exact hs.imp (fun h _ => h) (fun h _ => h)
      · cases h; exact hs.imp (fun h _ => h) (fun h _ => h)
      · cases h
    · rw [y3] at h; cases h

/-- The operand is the only version at which the set of an operator may have an included upper or an excluded lower end. -/
private theorem op_apart {o : Operator} (hv : o.Valid) (hb : ¬ o.Broken) {x : VSet} (hx : ∀ lim, o.toSet lim = .ok x) (w : Version)
    (hw : ¬ w.key = o.version.key) : x.Cov (cutAt w false) ↔ x.Cov (cutAt w true) := by
  obtain ⟨x', h1, -, h2, h3⟩ := op_shape hv hb
  have := (hx 0).symm.trans (h1 0)
  cases this
  by_cases hl : o.type.NoLast
  · by_cases ha : o.type.NoAfter
    · exact ⟨h2 hl w, h3 ha w⟩
    · refine ⟨h2 hl w, ?_⟩
      obtain ⟨t, v⟩ := o
      have h := hx 0
      have ht : t = .greater ∨ t = .notEqual := by
        by_contra hn; rw [not_or] at hn; exact ha hn
      rcases ht with rfl | rfl
      · replace h : Version.translateGreater v = .ok x := h
        rw [Version.translateGreater, mkRange_ok (by simp) (by simp) (show loOf (some v) _ < hiOf none _ from cutAt_lt_top _ _)] at h
        cases h
        rintro ⟨i, hi, j1, j2⟩
        obtain rfl : i = _ := by simpa [VSet.extract] using hi
        refine ⟨_, hi, ?_, cutAt_lt_top _ _⟩
        simp only [Item.lo, loOf, Item.min, Item.includeMin, Item.fields, cutAt_le] at j1 ⊢
        rcases j1 with j | ⟨j, -⟩
        · exact .inl j
        · exact absurd j.symm hw
      · replace h : Version.translateNotEqual 0 v = .ok x := h
        obtain ⟨s, s1, -, s3⟩ := complement_spec (a := .item (.point v)) (by trivial)
        simp only [Version.translateNotEqual, Version.translateEqual, s1, bind, Except.bind] at h
        split at h
        · cases h
          intro _
          rw [s3, point_cov, show cut v = cutAt v false from rfl, cutAt_eq]
          exact ⟨(cutAt_lt_top _ _).ne, fun e => hw e.1⟩
        · cases h
  · have ha : o.type.NoAfter := by
      by_contra ha
      unfold OpType.NoLast at hl
      unfold OpType.NoAfter at ha
      revert hl ha
      cases o.type <;> simp
    refine ⟨?_, h3 ha w⟩
    obtain ⟨t, v⟩ := o
    have h := hx 0
    have ht : t = .doubleEqual ∨ t = .equal ∨ t = .lessOrEqual := by
      by_contra hn; simp only [not_or] at hn; exact hl hn
    rcases ht with rfl | rfl | rfl
    · cases h
      intro j
      replace j : (VSet.item (.point v)).Cov _ := j
      rw [point_cov, show cut v = cutAt v false from rfl, cutAt_eq] at j
      exact absurd j.1 hw
    · cases h
      intro j
      replace j : (VSet.item (.point v)).Cov _ := j
      rw [point_cov, show cut v = cutAt v false from rfl, cutAt_eq] at j
      exact absurd j.1 hw
    · replace h : Version.translateLessOrEqual v = .ok x := h
      rw [Version.translateLessOrEqual, mkRange_ok (by simp) (by simp) (show loOf none _ < hiOf (some v) _ from bot_lt_cutAt _ _)] at h
      cases h
      rintro ⟨i, hi, j1, j2⟩
      obtain rfl : i = _ := by simpa [VSet.extract] using hi
      refine ⟨_, hi, bot_le, ?_⟩
      simp only [Item.hi, hiOf, Item.max, Item.includeMax, Item.fields, cutAt_lt] at j2 ⊢
      rcases j2 with j | ⟨j, -⟩
      · exact .inl j
      · exact absurd j hw

/-- Closed under what `to_version_set` does. -/
private structure Safe (P : VSet → Prop) : Prop where
  inter : ∀ {a b : VSet}, a.Normal → P a → b.Normal → P b → ∃ s, (∀ lim, a.intersection lim b = .ok s) ∧ s.Normal ∧ P s
  union : ∀ {a b : VSet}, a.Normal → P a → b.Normal → P b → ∃ s, (∀ lim, a.unionWith (lim + 2) b = .ok s) ∧ s.Normal ∧ P s

/-- At the versions in `L` no item starts after the excluded version, at the others none ends with the included version. -/
private def Apart (L : Version → Prop) (s : VSet) : Prop :=
  ∀ v : Version, (L v → s.Cov (cutAt v true) → s.Cov (cutAt v false)) ∧ (¬ L v → s.Cov (cutAt v false) → s.Cov (cutAt v true))

private theorem apart_safe {L : Version → Prop} (hL : ∀ v w : Version, v.key = w.key → L v → L w) : Safe (Apart L) := by
  refine ⟨fun {a b} na pa nb pb => ?_, fun {a b} na pa nb pb => ?_⟩
  · obtain ⟨s, s1, s2, s3⟩ := intersection_spec na nb
    refine ⟨s, s1, s2, fun v => ⟨fun hv h => ?_, fun hv h => ?_⟩⟩
    · rw [s3] at h ⊢; exact ⟨(pa v).1 hv h.1, (pb v).1 hv h.2⟩
    · rw [s3] at h ⊢; exact ⟨(pa v).2 hv h.1, (pb v).2 hv h.2⟩
  · obtain ⟨s, s1, s2, s3⟩ := (unionWith_spec na nb).1 (by
      rintro ⟨hb, -⟩
      obtain ⟨p, r, hp, hr, ⟨m, m1, m2, m3⟩, -⟩ := (clash_union_iff na nb).2 hb
      have hl : L p := by
        by_contra hn
        rcases hp with hp | hp
        · exact no_point na ((pa p).2 hn) hp
        · exact no_point nb ((pb p).2 hn) hp
      have hm : L m := hL p m ((veq_iff _ _).1 m2).symm hl
      rcases hr with hr | hr
      · rw [no_open na r hr m m1 ((pa m).1 hm)] at m3; cases m3
      · rw [no_open nb r hr m m1 ((pb m).1 hm)] at m3; cases m3)
    refine ⟨s, s1, s2, fun v => ⟨fun hv h => ?_, fun hv h => ?_⟩⟩
    · rw [s3] at h ⊢; exact h.imp ((pa v).1 hv) ((pb v).1 hv)
    · rw [s3] at h ⊢; exact h.imp ((pa v).2 hv) ((pb v).2 hv)

private theorem Safe.reduceAll {P : VSet → Prop} (hP : Safe P) (lim : Nat) : ∀ (l : List Specifier),
    (∀ x ∈ l, ∃ a, x.toSet lim = .ok a ∧ a.Normal ∧ P a) → ∀ acc : VSet, acc.Normal → P acc →
    ∃ a, Specifier.reduceAll lim acc l = .ok a ∧ a.Normal ∧ P a
  | [], _, acc, h1, h2 => ⟨acc, rfl, h1, h2⟩
  | x :: l, h, acc, h1, h2 => by
    obtain ⟨y, y1, y2, y3⟩ := h x (by simp)
    obtain ⟨z, z1, z2, z3⟩ := hP.inter h1 h2 y2 y3
    obtain ⟨w, w1, w2⟩ := hP.reduceAll lim l (fun x hx => h x (by simp [hx])) z z2 z3
    exact ⟨w, by simp only [Specifier.reduceAll, y1, bind, Except.bind, z1, w1], w2⟩

private theorem Safe.reduceAny {P : VSet → Prop} (hP : Safe P) (lim : Nat) : ∀ (l : List Specifier),
    (∀ x ∈ l, ∃ a, x.toSet (lim + 2) = .ok a ∧ a.Normal ∧ P a) → ∀ acc : VSet, acc.Normal → P acc →
    ∃ a, Specifier.reduceAny (lim + 2) acc l = .ok a ∧ a.Normal ∧ P a
  | [], _, acc, h1, h2 => ⟨acc, rfl, h1, h2⟩
  | x :: l, h, acc, h1, h2 => by
    obtain ⟨y, y1, y2, y3⟩ := h x (by simp)
    obtain ⟨z, z1, z2, z3⟩ := hP.union h1 h2 y2 y3
    obtain ⟨w, w1, w2⟩ := hP.reduceAny lim l (fun x hx => h x (by simp [hx])) z z2 z3
    exact ⟨w, by simp only [Specifier.reduceAny, y1, bind, Except.bind, z1, w1], w2⟩

private theorem Safe.ofAll {P : VSet → Prop} (hP : Safe P) (lim : Nat) {g : List Operator} (hg : g ≠ [])
    (h : ∀ o ∈ g, ∃ a, o.toSet lim = .ok a ∧ a.Normal ∧ P a) : ∃ a, (Specifier.ofAll g).toSet lim = .ok a ∧ a.Normal ∧ P a := by
  match g, hg with
  | [o], _ => exact h o (by simp)
  | o :: o' :: l, _ =>
    obtain ⟨y, y1, y2, y3⟩ := h o (by simp)
    obtain ⟨w, w1, w2⟩ := hP.reduceAll lim ((o' :: l).map .one) (fun x hx => by
      obtain ⟨p, hp, rfl⟩ := List.mem_map.1 hx
      exact h p (by simp at hp ⊢; tauto)) y y2 y3
    exact ⟨w, by simp only [Specifier.ofAll, List.map_cons, toSet, y1, bind, Except.bind] at w1 ⊢; exact w1, w2⟩

private theorem Safe.ofAny {P : VSet → Prop} (hP : Safe P) (lim : Nat) {gs : List (List Operator)} (hg : gs ≠ [])
    (h : ∀ g ∈ gs, ∃ a, (Specifier.ofAll g).toSet (lim + 2) = .ok a ∧ a.Normal ∧ P a) :
    ∃ a, (Specifier.ofAny gs).toSet (lim + 2) = .ok a ∧ a.Normal ∧ P a := by
  match gs, hg with
  | [o], _ => exact h o (by simp)
  | o :: o' :: l, _ =>
    obtain ⟨y, y1, y2, y3⟩ := h o (by simp)
    obtain ⟨w, w1, w2⟩ := hP.reduceAny lim ((o' :: l).map Specifier.ofAll) (fun x hx => by
      obtain ⟨p, hp, rfl⟩ := List.mem_map.1 hx
      exact h p (by simp at hp ⊢; tauto)) y y2 y3
    exact ⟨w, by simp only [Specifier.ofAny, List.map_cons, toSet, y1, bind, Except.bind] at w1 ⊢; exact w1, w2⟩

/-- C79. `parse_version_set` returns for every specifier without operators that have no set (C16), if no version stands both behind
`==`, `=` or `<=` and behind `>` or `!=`: unions fail (C22) only where a point meets a range starting right after it. -/
theorem C79_apart (lim : Nat) (s : PyStr) (gs : List (List Operator)) (hs : AnyOf (s.filter (fun c => !isSpace c)) gs)
    (hb : ∀ g ∈ gs, ∀ o ∈ g, ¬ o.Broken)
    (h : ∀ g ∈ gs, ∀ o ∈ g, ∀ g' ∈ gs, ∀ o' ∈ g', ¬ o.type.NoLast → ¬ o'.type.NoAfter → ¬ o.version ==ₚ o'.version) :
    ∃ x, VSet.parse (lim + 2) s = .ok x := by
  have hp : Specifier.parse s = .ok (ofAny gs) := (Specifier.parse_ok_iff' _ _).2 ⟨_, hs, rfl⟩
  have hv : ∀ g ∈ gs, g ≠ [] ∧ ∀ o ∈ g, o.Valid := by
    obtain ⟨a, l, -, hf⟩ := hs
    intro g hg
    obtain ⟨w, -, hw⟩ := forall₂_right hf hg
    refine ⟨hw.ne_nil, fun o ho => ?_⟩
    obtain ⟨a, l, -, hf⟩ := hw
    obtain ⟨w, -, hw⟩ := forall₂_right hf ho
    obtain ⟨h1, h2⟩ := single_valid hw
    exact ⟨h2.valid, h2.release, by cases h1 with | one _ ht => exact ht⟩
  have safe := apart_safe (L := fun v => ∃ g ∈ gs, ∃ o ∈ g, ¬ o.type.NoLast ∧ o.version.key = v.key)
    (fun v w e ⟨g, hg, o, ho, h1, h2⟩ => ⟨g, hg, o, ho, h1, h2.trans e⟩)
  have key : ∃ a, (ofAny gs).toSet (lim + 2) = .ok a := by
    obtain ⟨a, a1, -⟩ := safe.ofAny lim hs.ne_nil fun g hg => safe.ofAll (lim + 2) (hv g hg).1 fun o ho => by
      obtain ⟨x, x1, x2, x3, x4⟩ := op_shape ((hv g hg).2 o ho) (hb g hg o ho)
      refine ⟨x, x1 _, x2, fun v => ?_⟩
      by_cases e : v.key = o.version.key
      · constructor
        · rintro ⟨g', hg', o', ho', h1, h2⟩
          refine x4 ?_ v
          by_contra hn
          exact h g' hg' o' ho' g hg o ho h1 hn ((veq_iff _ _).2 (h2.trans e))
        · intro hn
          refine x3 ?_ v
          by_contra h1
          exact hn ⟨g, hg, o, ho, h1, e.symm⟩
      · have := op_apart ((hv g hg).2 o ho) (hb g hg o ho) x1 v e
        exact ⟨fun _ => this.2, fun _ => this.1⟩
    exact ⟨a, a1⟩
  obtain ⟨a, ha⟩ := key
  exact ⟨a, by rw [VSet.parse, hp]; exact ha⟩

/-- C79. So it returns if none of the operators is `==`, `=` or `<=`, or none is `>` or `!=`. -/
theorem C79_safe (lim : Nat) (s : PyStr) (gs : List (List Operator)) (hs : AnyOf (s.filter (fun c => !isSpace c)) gs)
    (hb : ∀ g ∈ gs, ∀ o ∈ g, ¬ o.Broken)
    (h : (∀ g ∈ gs, ∀ o ∈ g, o.type.NoLast) ∨ (∀ g ∈ gs, ∀ o ∈ g, o.type.NoAfter)) :
    ∃ x, VSet.parse (lim + 2) s = .ok x :=
  C79_apart lim s gs hs hb fun g hg o ho g' hg' o' ho' h1 h2 => by
    rcases h with h | h
    · exact absurd (h g hg o ho) h1
    · exact absurd (h g' hg' o' ho') h2

/-- What of the shape of an operator's set the unions of two depend on. -/
private theorem op_points {o : Operator} (hv : o.Valid) (hb : ¬ o.Broken) {x : VSet} (hx : ∀ lim, o.toSet lim = .ok x) :
    (∀ p, x.Has (.point p) → (o.type = .doubleEqual ∨ o.type = .equal) ∧ x = .item (.point o.version) ∧ p = o.version) ∧
    (∀ r m, x.Has (.range r) → r.min = some m → r.includeMin = false → m.key = o.version.key ∧
      (o.type = .greater ∧ x = .item (.range r) ∨ o.type = .notEqual ∧ ∃ r', x.Has (.range r') ∧ ∃ m', r'.max = some m' ∧ m'.key = o.version.key)) := by
  obtain ⟨x', h1, hn, h2, h3⟩ := op_shape hv hb
  have := (hx 0).symm.trans (h1 0)
  cases this
  constructor
  · intro p hp
    by_cases hl : o.type.NoLast
    · exact absurd hp (no_point hn (h2 hl p))
    · obtain ⟨t, v⟩ := o
      have h := hx 0
      have ht : t = .doubleEqual ∨ t = .equal ∨ t = .lessOrEqual := by
        by_contra hn; simp only [not_or] at hn; exact hl hn
      rcases ht with rfl | rfl | rfl
      · cases h
        exact ⟨.inl rfl, rfl, by injection hp⟩
      · cases h
        exact ⟨.inr rfl, rfl, by injection hp⟩
      · replace h : Version.translateLessOrEqual v = .ok x := h
        rw [Version.translateLessOrEqual, mkRange_ok (by simp) (by simp) (show loOf none _ < hiOf (some v) _ from bot_lt_cutAt _ _)] at h
        cases h
        cases hp
  · intro r m hr hm hi
    have hk : m.key = o.version.key := by
      by_contra hk
      have := no_open hn r hr m hm (op_apart hv hb hx m hk).2
      rw [this] at hi; cases hi
    refine ⟨hk, ?_⟩
    have ha : ¬ o.type.NoAfter := fun ha => by
      have := no_open hn r hr m hm (h3 ha m)
      rw [this] at hi; cases hi
    obtain ⟨t, v⟩ := o
    have h := hx 0
    have ht : t = .greater ∨ t = .notEqual := by
      by_contra hn; rw [not_or] at hn; exact ha hn
    rcases ht with rfl | rfl
    · left
      replace h : Version.translateGreater v = .ok x := h
      rw [Version.translateGreater, mkRange_ok (by simp) (by simp) (show loOf (some v) _ < hiOf none _ from cutAt_lt_top _ _)] at h
      cases h
      cases hr
      exact ⟨rfl, rfl⟩
    · right
      refine ⟨rfl, ?_⟩
      replace h : Version.translateNotEqual 0 v = .ok x := h
      obtain ⟨s, s1, s2, s3⟩ := complement_spec (a := .item (.point v)) (by trivial)
      simp only [Version.translateNotEqual, Version.translateEqual, s1, bind, Except.bind] at h
      split at h
      · cases h
        have hc : ∀ c, (VSet.union _).Cov c ↔ c ≠ ⊤ ∧ ¬ c = cut v := fun c => by rw [s3, point_cov]
        obtain ⟨i, hi, i1, i2⟩ := (hc ⊥).2 ⟨bot_ne_top, (bot_lt_cutAt v false).ne⟩
        have hle : i.hi ≤ cut v := by
          by_contra hlt
          exact ((hc (cut v)).1 ⟨i, hi, i1.trans bot_le, not_le.1 hlt⟩).2 rfl
        have e : i.hi = cut v := by
          by_contra hne
          obtain ⟨j, hj, j1, j2⟩ := (hc i.hi).2 ⟨(hle.trans_lt (cutAt_lt_top v false)).ne, hne⟩
          rcases gap_cases hn.gaps hi hj with rfl | g | g
          · exact lt_irrefl _ j2
          · exact absurd j1 (not_le_of_gt g)
          · exact absurd (j2.trans g) (not_lt_of_ge (i1.trans bot_le))
        cases i with
        | point w => exact absurd i1 (not_le_of_gt (bot_lt_cutAt w false))
        | range r' =>
          refine ⟨r', (has_iff _ _).2 hi, ?_⟩
          simp only [Item.hi, hiOf, Item.max, Item.includeMax, Item.fields] at e
          cases hmax : r'.max with
          | none => rw [hmax] at e; exact absurd e (cutAt_lt_top v false).ne'
          | some m' =>
            rw [hmax] at e
            exact ⟨m', rfl, ((cutAt_eq _ _ _ _).1 e).1⟩
      · cases h

/-- C79. Two requirements joined by a pipe: `parse_version_set` fails exactly for `==v|>w` and `=v|>w` with equal versions, in this
order. -/
theorem C79_pair (lim : Nat) (t t' : PyStr) (o o' : Operator) (h : SingleOf t o) (h' : SingleOf t' o') (hb : ¬ o.Broken) (hb' : ¬ o'.Broken) :
    (VSet.parse (lim + 2) (t ++ "|".toList ++ t') = .error .recursionError ↔
      (o.type = .doubleEqual ∨ o.type = .equal) ∧ o'.type = .greater ∧ o.version ==ₚ o'.version) ∧
    ((∃ z, VSet.parse (lim + 2) (t ++ "|".toList ++ t') = .ok z) ↔
      ¬ ((o.type = .doubleEqual ∨ o.type = .equal) ∧ o'.type = .greater ∧ o.version ==ₚ o'.version)) := by
  have valid : ∀ {t : PyStr} {o : Operator}, SingleOf t o → o.Valid ∧ ∀ lim, VSet.parse lim t = o.toSet lim := fun {t o} h => by
    obtain ⟨h1, h2⟩ := Specifier.single_valid h
    refine ⟨⟨h2.valid, h2.release, by cases h1 with | one _ ht => exact ht⟩, fun lim => ?_⟩
    unfold VSet.parse
    rw [parse_plain h.form.plain, Specifier.single_of h]
    show (Specifier.one o).toSet lim = _
    rw [Specifier.toSet]
  obtain ⟨v1, e1⟩ := valid h
  obtain ⟨v2, e2⟩ := valid h'
  obtain ⟨x, hx⟩ := (C16_failure o v1 0).1 hb
  obtain ⟨y, hy⟩ := (C16_failure o' v2 0).1 hb'
  obtain ⟨r1, r2⟩ := C79_or_returns (lim + 2) t t' x y ((e1 _).trans (hx _)) ((e2 _).trans (hy _))
    (fun hp => h'.form.plain _ hp (by decide)) (by omega)
  obtain ⟨p1, q1⟩ := op_points v1 hb hx
  obtain ⟨p2, q2⟩ := op_points v2 hb' hy
  have key : (∃ z, VSet.parse (lim + 2) (t ++ "|".toList ++ t') = .ok z) ↔
      ¬ ((o.type = .doubleEqual ∨ o.type = .equal) ∧ o'.type = .greater ∧ o.version ==ₚ o'.version) := by
    rw [r1]
    constructor
    · rintro h ⟨h1, h2, h3⟩
      have ex : x = .item (.point o.version) := by
        obtain ⟨u, w⟩ := o
        rcases h1 with rfl | rfl <;> exact (Except.ok.inj (hx 0)).symm
      have ey : y = .item (.range ⟨some o'.version, none, false, false⟩) := by
        obtain ⟨u, w⟩ := o'
        simp only at h2; subst h2
        have hy := hy 0
        replace hy : Version.translateGreater w = .ok y := hy
        rw [Version.translateGreater, mkRange_ok (by simp) (by simp) (show loOf (some w) _ < hiOf none _ from cutAt_lt_top _ _)] at hy
        exact (Except.ok.inj hy).symm
      subst ex ey
      rcases h with h | ⟨⟨r, hr⟩, -⟩
      · refine h ⟨o.version, _, .inl rfl, .inr rfl, ⟨_, rfl, ?_, rfl⟩, ?_⟩
        · rw [veq_iff] at h3 ⊢; exact h3.symm
        · rintro s (hs | hs)
          · cases hs
          · cases hs
            refine ⟨fun hm => ?_, by rintro m ⟨⟩⟩
            have := hm.1 _ rfl
            simp only [Bool.false_eq_true, false_and, or_false, vlt_iff] at this
            rw [veq_iff] at h3
            rw [h3] at this
            exact lt_irrefl _ this
      · cases hr
    · intro hno
      by_contra hc
      rw [not_or, not_not] at hc
      obtain ⟨⟨p, r, hp, hr, ⟨m, m1, m2, m3⟩, hall⟩, hc⟩ := hc
      rw [veq_iff] at m2
      rcases hp with hp | hp
      · obtain ⟨h1, h2, h3⟩ := p1 p hp
        rcases hr with hr | hr
        · rw [h2] at hr; cases hr
        · obtain ⟨k, ⟨g, -⟩ | ⟨-, r', hr', m', hm', km'⟩⟩ := q2 r m hr m1 m3
          · exact hno ⟨h1, g, (veq_iff _ _).2 (by rw [← h3, ← m2, k])⟩
          · exact (hall r' (.inr hr')).2 m' hm' ((veq_iff _ _).2 (by rw [km', ← k, m2]))
      · obtain ⟨h1, h2, h3⟩ := p2 p hp
        rcases hr with hr | hr
        · obtain ⟨k, ⟨-, g⟩ | ⟨-, r', hr', m', hm', km'⟩⟩ := q1 r m hr m1 m3
          · exact hc ⟨⟨_, g⟩, _, h2⟩
          · exact (hall r' (.inl hr')).2 m' hm' ((veq_iff _ _).2 (by rw [km', ← k, m2]))
        · rw [h2] at hr; cases hr
  refine ⟨⟨fun e => ?_, fun e => ?_⟩, key⟩
  · by_contra hn
    obtain ⟨z, hz⟩ := key.2 hn
    rw [hz] at e; cases e
  · exact r2 fun hz => key.1 hz e

example : SingleOf "==1".toList ⟨.doubleEqual, exVersion [1]⟩ ∧ SingleOf ">1.0".toList ⟨.greater, exVersion [1, 0]⟩ ∧
    VSet.parse 3 "==1|>1.0".toList = .error .recursionError ∧
    VSet.parse 3 ">1.0|==1".toList = .ok (.item (.range ⟨some (exVersion [1, 0]), none, true, false⟩)) :=
  ⟨.equal (o := "==".toList) (p := ⟨[], none, "1".toList, [], none, none, none, none⟩) (by decide) (by decide +kernel) (by decide +kernel) (by decide +kernel),
    .compare (o := ">".toList) (p := ⟨[], none, "1".toList, ["0".toList], none, none, none, none⟩) (by decide) (by decide +kernel) (by decide +kernel) rfl
      (by decide +kernel) (by rintro ⟨⟩), by decide +kernel, by decide +kernel⟩

/-! `== 1 | > 1` does not return, `> 1 | == 1` does: the order matters. The operators `==` and `>` on one version are what `C79_apart` excludes, `==` and `>` at all what
the two conditions of `C79_safe` exclude. -/

example : VSet.parse 2 "== 1 | > 1".toList = .error .recursionError := by decide +kernel
example : VSet.parse 9 "== 1 || > 1".toList = .error .recursionError := by decide +kernel
example : VSet.parse 2 "== 1 | > 2 | = 1.5 | > 3, <= 4".toList = .ok (.union [exPoint [1], exPoint [1, 5], exRange (some [2]) none false]) := by decide +kernel
example : VSet.parse 2 "> 1 | == 1".toList = VSet.parse 2 ">= 1".toList := by decide +kernel
example : VSet.parse 2 "> 1 | == 1 | == 2".toList = VSet.parse 2 ">= 1".toList := by decide +kernel
example : VSet.parse 2 "== 2 | == 1 | > 1".toList = .error .recursionError := by decide +kernel
example : VSet.parse 2 "<= 1 | > 1".toList = .ok .universal := by decide +kernel
example : ¬ OpType.doubleEqual.NoLast ∧ OpType.doubleEqual.NoAfter ∧ OpType.greater.NoLast ∧ ¬ OpType.greater.NoAfter := by
  simp [OpType.NoLast, OpType.NoAfter]
example : OpType.wildcardNotEqual.NoLast ∧ OpType.wildcardNotEqual.NoAfter := by simp [OpType.NoLast, OpType.NoAfter]
example : VSet.parse 2 "!= 1.* | ^2 | > 5.0rc1".toList = VSet.parse 2 "< 1.0 | >= 2.0".toList := by decide +kernel
example (lim : Nat) (t : PyStr) (gs : List (List Operator)) (h : AnyOf (t.filter (fun c => !isSpace c)) gs) (hb : ∀ g ∈ gs, ∀ o ∈ g, ¬ o.Broken)
    (hc : ∀ g ∈ gs, ∀ o ∈ g, o.type = .caret) : ∃ x, VSet.parse (lim + 2) t = .ok x :=
  C79_safe lim t gs h hb (.inl fun g hg o ho => by rw [hc g hg o ho]; simp [OpType.NoLast])

end Verif
