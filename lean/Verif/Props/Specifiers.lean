import Verif.Proofs.Specifiers
/-!
# Properties of specifiers and converters (C32-C35)

The converters are considered without their caches here; see C36 and C37 for those.
-/

namespace Verif
open scoped Verif

/-- `^1.2 || == 3`, for the examples. -/
def exAny : Specifier := .any [.one ⟨.caret, exVersion [1, 2]⟩, .one ⟨.doubleEqual, exVersion [3]⟩]

theorem exAny_valid : exAny.Valid := by
  have h : ∀ l, l ≠ [] → (exVersion l).Valid := fun l hl => exValid _ hl _ _ _ (by simp) (by simp) (by simp)
  refine .any (by simp) ?_
  simp only [List.mem_cons, List.not_mem_nil, or_false, forall_eq_or_imp, forall_eq]
  exact ⟨.one (h _ (by simp)) (by simp), .one (h _ (by simp)) (by simp)⟩

/-- C32. Accepting never fails, and whenever a specifier converts to a set, the set is in normal form and contains exactly
the versions that the specifier accepts. -/
theorem C32_conversion_exact (s : Specifier) (hs : s.Valid) (lim : Nat) (x : VSet) (h : s.toSet lim = .ok x) :
    x.Normal ∧ ∀ v : Version, ∃ b, s.accepts v = .ok b ∧ (b = true ↔ x.Mem v) := by
  obtain ⟨h1, h2⟩ := Specifier.toSet_means hs lim x h
  exact ⟨h1, fun v => ⟨_, h2 v, vset_contains_iff_mem x v⟩⟩

theorem C32_accepts_total (s : Specifier) (hs : s.Valid) (v : Version) : ∃ b, s.accepts v = .ok b :=
  Specifier.accepts_total hs v

example : exAny.toSet 2 = .ok (.union [exRange (some [1, 2]) (some [2, 0]), exPoint [3]]) := by decide +kernel
example : exAny.accepts (exVersion [1, 9]) = .ok true ∧ exAny.accepts (exVersion [2, 1]) = .ok false := by decide +kernel

/-- C33. Every set in normal form converts to a specifier which accepts exactly its versions, and which converts back to an
equal set. -/
theorem C33_round_trip (x : VSet) (hx : x.Normal) :
    ∃ t, (∀ lim, Specifier.fromSet lim x = .ok t) ∧ (∀ v : Version, ∃ b, t.accepts v = .ok b ∧ (b = true ↔ x.Mem v)) ∧
      ∃ y, (∀ lim, t.toSet (lim + 2) = .ok y) ∧ y.eq x = true := by
  obtain ⟨t, t1, t2, y, y1, y2, y3⟩ := Specifier.fromSet_spec hx
  exact ⟨t, t1, fun v => ⟨_, t2 v, vset_contains_iff_mem x v⟩, y, y1, (eq_iff_cov y2 hx).2 y3⟩

/-- C33. Equal sets convert to equal specifiers. -/
theorem C33_equal_sets (x y : VSet) (hx : x.Normal) (hy : y.Normal) (h : x.eq y = true) :
    ∃ s t, (∀ lim, Specifier.fromSet lim x = .ok s) ∧ (∀ lim, Specifier.fromSet lim y = .ok t) ∧ s.eq t = true :=
  Specifier.fromSet_congr hx hy ((eq_iff_cov hx hy).1 h)

example : (VSet.union [exRange none (some [1]) false, exPoint [2], exRange (some [3]) (some [4])]).Normal :=
  ⟨by decide, by
    simp only [List.mem_cons, List.not_mem_nil, or_false, forall_eq_or_imp, forall_eq]
    exact ⟨⟨by simp, by simp, by simp⟩, trivial, by simp, by simp, fun a b ha hb => by
      cases ha; cases hb; decide⟩, by
    simp only [List.pairwise_cons, List.mem_cons, List.not_mem_nil, or_false, forall_eq_or_imp, forall_eq]
    exact ⟨⟨⟨exVersion [1], exVersion [2], rfl, rfl, .inl (by decide)⟩, exVersion [1], exVersion [3], rfl, rfl, .inl (by decide)⟩,
      ⟨exVersion [2], exVersion [3], rfl, rfl, .inl (by decide)⟩, by simp, by simp⟩⟩

/-- C34. Whenever `simplify` returns, the result accepts exactly what the specifier accepts, and simplifying it again gives an
equal specifier. -/
theorem C34_simplify (s : Specifier) (hs : s.Valid) (lim : Nat) (t : Specifier) (h : s.simplify (lim + 2) = .ok t) :
    (∀ v : Version, t.accepts v = s.accepts v) ∧ ∃ t', t.simplify (lim + 2) = .ok t' ∧ t'.eq t = true := by
  unfold Specifier.simplify at h ⊢
  simp only [bind, Except.bind] at h ⊢
  cases hx : s.toSet (lim + 2) with
  | error e => rw [hx] at h; cases h
  | ok x =>
    rw [hx] at h
    obtain ⟨h1, h2⟩ := Specifier.toSet_means hs _ x hx
    obtain ⟨t0, t1, t2, y, y1, y2, y3⟩ := Specifier.fromSet_spec h1
    have h : Specifier.fromSet (lim + 2) x = .ok t := h
    rw [t1] at h; injection h with h; subst h
    refine ⟨fun v => by rw [h2, t2], ?_⟩
    obtain ⟨p, q, p1, q1, pq⟩ := Specifier.fromSet_congr y2 h1 y3
    obtain rfl : t0 = q := Except.ok.inj ((t1 0).symm.trans (q1 0))
    exact ⟨p, by rw [y1]; exact p1 _, pq⟩

/-- C34. `simplify` returns whenever the specifier converts to a set. -/
theorem C34_simplify_returns (s : Specifier) (hs : s.Valid) (lim : Nat) (x : VSet) (h : s.toSet lim = .ok x) :
    ∃ t, s.simplify lim = .ok t := by
  obtain ⟨h1, -⟩ := Specifier.toSet_means hs _ x h
  obtain ⟨t0, t1, -⟩ := Specifier.fromSet_spec h1
  exact ⟨t0, by unfold Specifier.simplify; simp only [h, bind, Except.bind]; exact t1 lim⟩

/-- `>= 1, != 1` simplifies to `> 1`, `^1.2 || == 3` to `>= 1.2, < 2.0 || == 3`. -/
example : (Specifier.all [.one ⟨.greaterOrEqual, exVersion [1]⟩, .one ⟨.notEqual, exVersion [1]⟩]).simplify 2 =
    .ok (.one ⟨.greater, exVersion [1]⟩) := by
  unfold Specifier.simplify
  rw [show Specifier.toSet 2 _ = .ok (.item (exRange (some [1]) none false)) by decide +kernel]; rfl
example : exAny.simplify 2 = .ok (.any [.all [.one ⟨.greaterOrEqual, exVersion [1, 2]⟩, .one ⟨.less, exVersion [2, 0]⟩],
    .one ⟨.doubleEqual, exVersion [3]⟩]) := by rfl

/-- C35. `SpecifierAny.of` accepts a version iff one of the specifiers does. -/
theorem C35_any (l : List Specifier) (hl : ∀ s ∈ l, s.Valid) :
    ∃ t, Specifier.anyOf l = .ok t ∧ t.Valid ∧ ∀ v : Version, ∃ b, t.accepts v = .ok b ∧ (b = true ↔ ∃ s ∈ l, s.accepts v = .ok true) := by
  match l, hl with
  | [], _ => exact ⟨.never, rfl, .never, fun v => ⟨false, by simp [Specifier.accepts], by simp⟩⟩
  | [s], hl =>
    refine ⟨s, rfl, hl s (by simp), fun v => ?_⟩
    obtain ⟨b, hb⟩ := Specifier.accepts_total (hl s (by simp)) v
    exact ⟨b, hb, by simp [hb]⟩
  | a :: b :: l, hl =>
    refine ⟨.any (a :: b :: l), rfl, .any (by simp) hl, fun v => ?_⟩
    obtain ⟨c, c1, c2⟩ := Specifier.anyAccepts_spec (l := a :: b :: l) (v := v) (fun s hs => Specifier.accepts_total (hl s hs) v)
    exact ⟨c, by rw [← c1, Specifier.accepts], c2⟩

example : Specifier.anyOf [.one ⟨.less, exVersion [1]⟩, .one ⟨.greater, exVersion [2]⟩] = .ok (.any [.one ⟨.less, exVersion [1]⟩, .one ⟨.greater, exVersion [2]⟩]) ∧
    Specifier.anyOf [.one ⟨.less, exVersion [1]⟩] = .ok (.one ⟨.less, exVersion [1]⟩) := ⟨rfl, rfl⟩

/-- C35. `SpecifierAll.of` accepts a version iff all specifiers do. -/
theorem C35_all (l : List Specifier) (hl : ∀ s ∈ l, s.Valid) :
    ∃ t, Specifier.allOf l = .ok t ∧ t.Valid ∧ ∀ v : Version, ∃ b, t.accepts v = .ok b ∧ (b = true ↔ ∀ s ∈ l, s.accepts v = .ok true) := by
  match l, hl with
  | [], _ => exact ⟨.always, rfl, .always, fun v => ⟨true, by simp [Specifier.accepts], by simp⟩⟩
  | [s], hl =>
    refine ⟨s, rfl, hl s (by simp), fun v => ?_⟩
    obtain ⟨b, hb⟩ := Specifier.accepts_total (hl s (by simp)) v
    exact ⟨b, hb, by simp [hb]⟩
  | a :: b :: l, hl =>
    refine ⟨.all (a :: b :: l), rfl, .all (by simp) hl, fun v => ?_⟩
    obtain ⟨c, c1, c2⟩ := Specifier.allAccepts_spec (l := a :: b :: l) (v := v) (fun s hs => Specifier.accepts_total (hl s hs) v)
    exact ⟨c, by rw [← c1, Specifier.accepts], c2⟩

example : Specifier.allOf [.one ⟨.less, exVersion [1]⟩, .one ⟨.greater, exVersion [2]⟩] = .ok (.all [.one ⟨.less, exVersion [1]⟩, .one ⟨.greater, exVersion [2]⟩]) ∧
    (Specifier.all [.one ⟨.less, exVersion [1]⟩, .one ⟨.greater, exVersion [2]⟩]).accepts (exVersion [0]) = .ok false := ⟨rfl, by decide +kernel⟩

/-- C35. The constructors themselves reject fewer than two specifiers. -/
theorem C35_constructors (l : List Specifier) :
    (Specifier.mkAny l = if l.length < 2 then .error .typeError else .ok (.any l)) ∧
    (Specifier.mkAll l = if l.length < 2 then .error .typeError else .ok (.all l)) := by
  match l with
  | [] => exact ⟨rfl, rfl⟩
  | [_] => exact ⟨rfl, rfl⟩
  | _ :: _ :: l => constructor <;> rw [if_neg (by simp)] <;> rfl

example : (Specifier.anyOf [exAny, .one ⟨.less, exVersion [0, 1]⟩]) = .ok (.any [exAny, .one ⟨.less, exVersion [0, 1]⟩]) ∧
    (Specifier.any [exAny, .one ⟨.less, exVersion [0, 1]⟩]).accepts (exVersion [0]) = .ok true := ⟨rfl, by decide +kernel⟩

end Verif
