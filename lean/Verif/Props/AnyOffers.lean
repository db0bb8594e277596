import Verif.Props.Together
/-!
# C132: several requirements on one package, with local builds on offer

C130 has public versions on offer only. Here local builds are among them, and the operands of `==` and `!=` may be local builds too.
-/

namespace Verif
open scoped Verif Classical
open Choosing

namespace Offer

/-- The prescribed spelling. -/
def text : Offer → PyStr
  | plain x => x.text
  | built x => x.text

/-- A local build is above its public version, and below everything that is above that. -/
def Below : Offer → Offer → Prop
  | plain x, plain y => x.Below y
  | plain x, built y => ¬ y.base.Below x
  | built x, plain y => x.base.Below y
  | built x, built y => x.base.Below y.base ∨ x.base.Same y.base ∧ List.Lex LabelPart.Below x.label y.label

/-- The same version, though one may have more zeros at the end of its numbers. -/
def Same : Offer → Offer → Prop
  | plain x, plain y => x.Same y
  | built x, built y => x.base.Same y.base ∧ x.label = y.label
  | _, _ => False

def Suits (fs : List (List (List Wish))) (o : Offer) : Prop := ∀ f ∈ fs, ∃ g ∈ f, ∀ w ∈ g, w.Holds o

/-- The version has a spelling. -/
def Written (o : Offer) : Prop := ∃ p, o.WrittenAs p

end Offer

/-- The strings are versions, in any spelling. -/
def AllWritten (os : List Offer) (offers : List PyStr) : Prop :=
  List.Forall₂ (fun o t => ∃ p, Offer.WrittenAs o p ∧ p.text = t) os offers

namespace AnyOffers
open LocalBuilds

abbrev ver := AnySpelling.Offer.ver

theorem all_parse {os : List Offer} {offers : List PyStr} (h : AllWritten os offers) :
    mapAll Version.parse offers = .ok (os.map ver) ∧ ∀ o ∈ os, o.Written := by
  induction h with
  | nil => exact ⟨rfl, by simp⟩
  | cons h _ ih =>
    obtain ⟨p, hp, rfl⟩ := h
    refine ⟨?_, ?_⟩
    · simp only [mapAll, AnySpelling.offer_parse hp, ih.1, List.map_cons]; rfl
    · rintro x (_ | ⟨_, hx⟩)
      · exact ⟨p, hp⟩
      · exact ih.2 x hx

theorem ver_short (o : Offer) : (ver o).toShortStr = o.text := by
  cases o with
  | plain x => exact FromPublic.ver_short x
  | built x => exact build_short x

theorem ver_canonical {o : Offer} (h : o.Written) : (ver o).Canonical := by
  obtain ⟨p, hp⟩ := h
  cases o with
  | plain x => exact FromPublic.ver_canonical (AnySpelling.numbers_ne hp.1)
  | built x => exact build_canonical (AnySpelling.build_wf hp)

theorem text_parse {o : Offer} (h : o.Written) : Version.parse o.text = .ok (ver o) := by
  rw [← ver_short]; exact C38_short_round_trip _ (ver_canonical h)

theorem ver_lt {a b : Offer} (ha : a.Written) (hb : b.Written) : ver a <ₚ ver b ↔ a.Below b := by
  obtain ⟨p, hp⟩ := ha
  obtain ⟨q, hq⟩ := hb
  have mixed : ∀ (x : Build) (y : Pub), x.WellFormed → y.numbers ≠ [] →
      (x.ver <ₚ FromPublic.ver y ↔ x.base.Below y) ∧ (FromPublic.ver y <ₚ x.ver ↔ ¬ x.base.Below y) := fun x y hx hy => by
    obtain ⟨v, w, hv, hw, h1, h2, -⟩ := C128_public x hx y hy
    rw [build_parse hx] at hv
    rw [FromPublic.pub_parse hy] at hw
    cases hv; cases hw
    exact ⟨h1, h2⟩
  cases a with
  | plain x =>
    cases b with
    | plain y => exact FromPublic.ver_lt (AnySpelling.numbers_ne hp.1) (AnySpelling.numbers_ne hq.1)
    | built y => exact (mixed y x (AnySpelling.build_wf hq) (AnySpelling.numbers_ne hp.1)).2
  | built x =>
    cases b with
    | plain y => exact (mixed x y (AnySpelling.build_wf hp) (AnySpelling.numbers_ne hq.1)).1
    | built y => exact build_lt (AnySpelling.build_wf hp) (AnySpelling.build_wf hq)

theorem ver_eq {a b : Offer} (ha : a.Written) (hb : b.Written) : ver a ==ₚ ver b ↔ a.Same b := by
  obtain ⟨p, hp⟩ := ha
  obtain ⟨q, hq⟩ := hb
  cases a with
  | plain x =>
    cases b with
    | plain y => exact FromPublic.ver_eq (AnySpelling.numbers_ne hp.1) (AnySpelling.numbers_ne hq.1)
    | built y =>
      show PyCmp.eq (FromPublic.ver x) y.ver = true ↔ False
      rw [AnySpelling.pub_ne]; simp
  | built x =>
    cases b with
    | plain y =>
      show PyCmp.eq x.ver (FromPublic.ver y) = true ↔ False
      have h := AnySpelling.pub_ne (x := y) (y := x)
      rw [veq_iff, iff_false]
      intro e
      rw [Bool.eq_false_iff, ne_eq, veq_iff] at h
      exact h e.symm
    | built y => exact AnySpelling.build_eq (AnySpelling.build_wf hp) (AnySpelling.build_wf hq)

theorem ver_le {a b : Offer} (ha : a.Written) (hb : b.Written) : ver a ≤ₚ ver b ↔ ¬ b.Below a := by
  rw [← ver_lt hb ha, vle_iff, vlt_iff, not_lt]

/-- The greatest, and among equal ones the first, for things of any type that have a version. -/
theorem chosen_map {α : Type} (f : α → Version) (P : α → Prop) (xs : List α) :
    (PickText.chosen ((xs.filter fun x => decide (P x)).map f) = none ↔ ∀ x ∈ xs, ¬ P x) ∧
      ∀ s, PickText.chosen ((xs.filter fun x => decide (P x)).map f) = some s ↔ ∃ l1 x l2, xs = l1 ++ x :: l2 ∧ (f x).toShortStr = s ∧ P x ∧
        (∀ y ∈ l1, P y → f y <ₚ f x) ∧ ∀ y ∈ l2, P y → f y ≤ₚ f x := by
  have hm : ∀ x, x ∈ xs.filter (fun x => decide (P x)) ↔ x ∈ xs ∧ P x := fun x => by simp [List.mem_filter]
  rcases hl : xs.filter (fun x => decide (P x)) with _ | ⟨a, l⟩
  · have none_meets : ∀ x ∈ xs, ¬ P x := fun x hx' m => by
      have := (hm x).2 ⟨hx', m⟩
      rw [hl] at this
      simp at this
    refine ⟨by simpa [PickText.chosen] using none_meets, fun s => ⟨(by rintro ⟨⟩), ?_⟩⟩
    rintro ⟨l1, x, l2, rfl, -, m, -⟩
    exact absurd m (none_meets x (by simp))
  · refine ⟨⟨(by rintro ⟨⟩), fun hno => ?_⟩, fun s => ?_⟩
    · have := (hm a).1 (hl ▸ List.mem_cons_self)
      exact absurd this.2 (hno a this.1)
    · show some (pyMax (f a) (l.map f)).toShortStr = some s ↔ _
      constructor
      · intro e
        obtain ⟨k1, k2, e1, h3, h4⟩ := (C116_max (f a) (l.map f) _).1 rfl
        rw [← List.map_cons, ← hl] at e1
        rw [List.map_eq_append_iff] at e1
        obtain ⟨l1, l', e2, rfl, e1⟩ := e1
        rw [List.map_eq_cons_iff] at e1
        obtain ⟨m, l2, rfl, em, rfl⟩ := e1
        rw [List.filter_eq_append_iff] at e2
        obtain ⟨x1, x', rfl, f1, f'⟩ := e2
        rw [List.filter_eq_cons_iff] at f'
        obtain ⟨y1, y2, rfl, n1, mm, f2⟩ := f'
        rw [← em] at h3 h4 e
        refine ⟨x1 ++ y1, m, y2, by simp, Option.some.inj e, by simpa using mm, ?_, ?_⟩
        · intro y hy my
          rcases List.mem_append.1 hy with hy | hy
          · exact h3 _ (List.mem_map_of_mem (by rw [← f1]; simp [hy, my]))
          · exact absurd my (by simpa using n1 y hy)
        · intro y hy my
          exact h4 _ (List.mem_map_of_mem (by rw [← f2]; simp [hy, my]))
      · rintro ⟨l1, x, l2, rfl, rfl, mx, g1, g2⟩
        have e : pyMax (f a) (l.map f) = f x := by
          rw [C116_max]
          refine ⟨(l1.filter fun x => decide (P x)).map f, (l2.filter fun x => decide (P x)).map f, ?_, ?_, ?_⟩
          · rw [← List.map_cons, ← hl, List.filter_append, List.filter_cons_of_pos (by simpa using mx)]
            simp
          · intro v hv
            obtain ⟨y, hy, rfl⟩ := List.mem_map.1 hv
            simp only [List.mem_filter, decide_eq_true_eq] at hy
            exact g1 y hy.1 hy.2
          · intro v hv
            obtain ⟨y, hy, rfl⟩ := List.mem_map.1 hv
            simp only [List.mem_filter, decide_eq_true_eq] at hy
            exact g2 y hy.1 hy.2
        rw [e]

theorem together_of {lim : Nat} {ts offers : List PyStr} {r : Option PyStr} (h : resolveText lim ts offers = .ok r) :
    ∃ z, together lim ts = .ok z := by
  cases e : together lim ts with
  | error _ => simp only [resolveText, e] at h; cases h
  | ok z => exact ⟨z, rfl⟩

theorem resolve_set {lim : Nat} {ts : List PyStr} {z : VSet} (h : together lim ts = .ok z) {os : List Offer} {offers : List PyStr}
    (ho : AllWritten os offers) :
    resolveText lim ts offers = .ok (PickText.chosen ((os.filter fun o => @decide (z.contains (ver o) = true) (Classical.propDecidable _)).map ver)) := by
  simp only [resolveText, h, (all_parse ho).1]
  show Except.ok _ = _
  rw [List.filter_map]
  congr 3
  refine List.filter_congr fun x _ => ?_
  simp [Function.comp]

/-- What it means that a version is chosen. -/
theorem chosen_at {lim : Nat} {ts : List PyStr} {z : VSet} (h : together lim ts = .ok z) {os : List Offer} {offers : List PyStr}
    (ho : AllWritten os offers) :
    (resolveText lim ts offers = .ok none ↔ ∀ o ∈ os, ¬ z.contains (ver o) = true) ∧
      ∀ s, resolveText lim ts offers = .ok (some s) ↔ ∃ l1 x l2, os = l1 ++ x :: l2 ∧ x.text = s ∧ z.contains (ver x) = true ∧
        (∀ y ∈ l1, z.contains (ver y) = true → y.Below x) ∧ ∀ y ∈ l2, z.contains (ver y) = true → ¬ x.Below y := by
  rw [resolve_set h ho]
  simp only [Except.ok.injEq]
  have hw := (all_parse ho).2
  obtain ⟨h1, h2⟩ := chosen_map ver (fun o => z.contains (ver o) = true) os
  refine ⟨h1, fun s => (h2 s).trans ?_⟩
  refine exists_congr fun l1 => exists_congr fun x => exists_congr fun l2 => ?_
  rw [ver_short]
  refine and_congr_right fun e => and_congr_right fun _ => and_congr_right fun _ => ?_
  have hx := hw x (by simp [e])
  refine and_congr (forall₂_congr fun y hy => ?_) (forall₂_congr fun y hy => ?_)
  · rw [ver_lt (hw y (by simp [e, hy])) hx]
  · rw [ver_le (hw y (by simp [e, hy])) hx]

theorem sets_hold {lim : Nat} {fs : List (List (List Wish))} {ts : List PyStr} (hw : RequirementsWritten fs ts) {z : VSet}
    (h : together lim ts = .ok z) {o : Offer} (ho : o.Written) : z.contains (ver o) = true ↔ o.Suits fs := by
  obtain ⟨p, hp⟩ := ho
  cases e : mapAll (VSet.parse lim) ts with
  | error _ => simp only [together, e] at h; cases h
  | ok l =>
    obtain ⟨a, a1, -, a2⟩ := Together.intersectAll_spec lim l (Together.sets_normal e) .universal universal_normal
    have : together lim ts = .ok a := by simp only [together, e]; exact a1
    rw [h] at this
    cases this
    rw [a2, and_iff_right (show VSet.universal.contains (ver o) = true from rfl)]
    clear a1 a2 h
    induction hw generalizing l with
    | nil => cases e; simp [Offer.Suits]
    | @cons f t fs ts hf _ ih =>
      simp only [mapAll] at e
      cases e1 : VSet.parse lim t with
      | error _ => rw [e1] at e; cases e
      | ok y =>
        rw [e1] at e
        cases e' : mapAll (VSet.parse lim) ts with
        | error _ => rw [e'] at e; cases e
        | ok l' =>
          rw [e'] at e
          cases e
          obtain ⟨v, hv, h1⟩ := C129_set f t hf _ p hp lim y e1
          rw [AnySpelling.offer_parse hp] at hv
          cases hv
          simp only [List.forall_mem_cons, ih l' e', Offer.Suits]
          exact and_congr_left fun _ => h1

end AnyOffers

open AnyOffers

/-- C132. With local builds among the versions on offer: if the program returns, it prints nothing exactly if none of the versions
satisfies all the requirements, and else the greatest one that does, in the prescribed spelling. -/
theorem C132_resolve (lim : Nat) (fs : List (List (List Wish))) (ts : List PyStr) (hw : RequirementsWritten fs ts) (os : List Offer)
    (offers : List PyStr) (ho : AllWritten os offers) (r : Option PyStr) (h : resolveText lim ts offers = .ok r) :
    (r = none ↔ ∀ o ∈ os, ¬ o.Suits fs) ∧
      ∀ s, r = some s ↔ ∃ l1 x l2, os = l1 ++ x :: l2 ∧ x.text = s ∧ x.Suits fs ∧
        (∀ y ∈ l1, y.Suits fs → y.Below x) ∧ ∀ y ∈ l2, y.Suits fs → ¬ x.Below y := by
  obtain ⟨z, hz⟩ := together_of h
  have hw' := (all_parse ho).2
  obtain ⟨h1, h2⟩ := chosen_at hz ho
  rw [h] at h1 h2
  simp only [Except.ok.injEq] at h1 h2
  refine ⟨h1.trans (forall₂_congr fun o ho' => by rw [sets_hold hw hz (hw' o ho')]), fun s => (h2 s).trans ?_⟩
  refine exists_congr fun l1 => exists_congr fun x => exists_congr fun l2 => and_congr_right fun e => and_congr_right fun _ => ?_
  have hs : ∀ y ∈ os, (z.contains (ver y) = true ↔ y.Suits fs) := fun y hy => sets_hold hw hz (hw' y hy)
  refine and_congr (hs x (by simp [e])) (and_congr (forall₂_congr fun y hy => ?_) (forall₂_congr fun y hy => ?_))
  · rw [hs y (by simp [e, hy])]
  · rw [hs y (by simp [e, hy])]

/-- `>=1.0` prefers the local build, `<=1.0` and `==1.0` do not have it. -/
example : resolveText 5 [">=1.0".toList] ["1.0".toList, "1.0+cu.2".toList, "1.0+cu".toList] = .ok (some "1.0+cu.2".toList) ∧
    resolveText 5 [">=1.0".toList, "!=1.0+cu.2".toList] ["1.0".toList, "1.0+cu.2".toList, "1.0+cu".toList] = .ok (some "1.0+cu".toList) ∧
    resolveText 5 ["<=1.0".toList] ["1.0".toList, "1.0+cu.2".toList, "1.0+cu".toList] = .ok (some "1.0".toList) ∧
    resolveText 5 ["==1.0 || ==1.0+cu".toList] ["1.0".toList, "1.0+cu.2".toList, "1.0+cu".toList] = .ok (some "1.0+cu".toList) := by
  decide +kernel

/-- C132. It fails exactly if one of the requirements cannot be made a version set, and then as the first of those does; the versions
on offer have no part in that. -/
theorem C132_fails (lim : Nat) (ts : List PyStr) (os : List Offer) (offers : List PyStr) (ho : AllWritten os offers) (e : PyErr) :
    resolveText lim ts offers = .error e ↔
      ∃ l1 t l2, ts = l1 ++ t :: l2 ∧ (∀ u ∈ l1, ∃ z, VSet.parse lim u = .ok z) ∧ VSet.parse lim t = .error e := by
  have h0 : resolveText lim ts offers = .error e ↔ resolveText lim ts [] = .error e := by
    cases hz : together lim ts with
    | error _ => simp only [resolveText, hz]; rfl
    | ok z =>
      rw [resolve_set hz ho, resolve_set hz (os := []) .nil]
      constructor <;> rintro ⟨⟩
  rw [h0]
  have key : ∀ ts : List PyStr, resolveText lim ts [] = .error e ↔ mapAll (VSet.parse lim) ts = .error e := fun ts => by
    cases hm : mapAll (VSet.parse lim) ts with
    | error _ => simp only [resolveText, together, hm]; constructor <;> (rintro ⟨⟩; rfl)
    | ok l =>
      obtain ⟨a, a1, -, -⟩ := Together.intersectAll_spec lim l (Together.sets_normal hm) .universal universal_normal
      have : together lim ts = .ok a := by simp only [together, hm]; exact a1
      rw [resolve_set this (os := []) .nil]
      constructor <;> rintro ⟨⟩
  rw [key, Together.first_error]

example : resolveText 5 [">=1".toList, "^0.1.post1.dev1".toList, "==1 | >1".toList] ["1+cu".toList] = .error .valueError ∧
    resolveText 5 [">=1".toList, "==1 | >1".toList, "^0.1.post1.dev1".toList] ["1+cu".toList] = .error .recursionError := by decide +kernel

/-- The signs for which a local build will do whenever its public version does. -/
def Sign.Blind : Sign → Prop
  | .doubleEqual | .equal | .lessOrEqual => False
  | _ => True

theorem AnyOffers.below_asymm {a x : Pub} (hx : x.numbers ≠ []) (h : a.Below x) : ¬ x.Below a := by
  have e : (FromPublic.longer a).Below x ↔ a.Below x := by
    simp only [Pub.Below, Smaller, AgreeTo, FromPublic.longer, FromText.num_zero]
    rfl
  have hn : (FromPublic.longer a).numbers ≠ [] := by simp [FromPublic.longer]
  rw [← e, ← FromPublic.ver_lt hn hx, vlt_iff] at h
  rw [← FromPublic.longer_below, ← FromPublic.ver_lt hx hn, vlt_iff]
  exact h.asymm

/-- C132. If the requirements are without labels and without the signs `==`, `=` (unless with `.*`) and `<=`, then the public version of
a local build that is on offer is never chosen. -/
theorem C132_preferred (lim : Nat) (fs : List (List (List Wish))) (ts : List PyStr) (hw : RequirementsWritten fs ts)
    (hb : ∀ f ∈ fs, ∀ g ∈ f, ∀ w ∈ g, ∃ q : Ask, w = .on q ∧ q.sign.Blind) (os : List Offer) (offers : List PyStr)
    (ho : AllWritten os offers) (x : Build) (hx : .built x ∈ os) : resolveText lim ts offers ≠ .ok (some x.base.text) := by
  intro h
  obtain ⟨z, hz⟩ := together_of h
  have hw' := (all_parse ho).2
  obtain ⟨l1, y, l2, e, hy, hc, hl1, hl2⟩ := ((chosen_at hz ho).2 _).1 h
  obtain ⟨p, hp⟩ := hw' _ hx
  have hy' : y ∈ os := by simp [e]
  have hyw := hw' y hy'
  have hn : x.base.numbers ≠ [] := AnySpelling.numbers_ne hp.1
  have hv : ver y = FromPublic.ver x.base := by
    have := text_parse hyw
    rw [hy, FromPublic.pub_parse hn] at this
    exact (Except.ok.inj this).symm
  have hyp : ∃ u, y = .plain u := by
    cases y with
    | plain u => exact ⟨u, rfl⟩
    | built u => exact absurd (congrArg Version.local_ hv) (by simp [ver, AnySpelling.Offer.ver, Build.ver, FromPublic.ver])
  obtain ⟨u, rfl⟩ := hyp
  have hu : u = x.base := PickText.ver_injective hv
  subst hu
  have below : (Offer.plain x.base).Below (.built x) := by
    show ¬ x.base.Below x.base
    rw [← FromPublic.ver_lt hn hn, vlt_iff]
    exact lt_irrefl _
  have suits : z.contains (ver (.built x)) = true := by
    rw [sets_hold hw hz (hw' _ hx)]
    rw [sets_hold hw hz hyw] at hc
    intro f hf
    obtain ⟨g, hg, hh⟩ := hc f hf
    refine ⟨g, hg, fun w hwg => ?_⟩
    obtain ⟨q, rfl, hq⟩ := hb f hf g hg w hwg
    have := hh _ hwg
    obtain ⟨s, a⟩ := q
    cases s <;> first | exact this | exact hq.elim | trivial | exact AnyOffers.below_asymm hn this
  have other : ¬ (Offer.built x).Below (.plain x.base) := by
    show ¬ x.base.Below x.base
    exact below
  rw [e, List.mem_append, List.mem_cons] at hx
  rcases hx with hx | hx | hx
  · exact other (hl1 _ hx suits)
  · cases hx
  · exact hl2 _ hx suits below

/-- With `<=`, and with a label, it may be. -/
example : resolveText 5 ["~1.0".toList, "!=2.*".toList] ["1.0".toList, "1.0+a".toList] = .ok (some "1.0+a".toList) ∧
    resolveText 5 ["<=1.0".toList] ["1.0".toList, "1.0+a".toList] = .ok (some "1.0".toList) ∧
    resolveText 5 ["!=1.0+a".toList] ["1.0".toList, "1.0+a".toList] = .ok (some "1.0".toList) := by decide +kernel
example : Sign.Blind .tilde ∧ Sign.Blind .notUnder ∧ ¬ Sign.Blind .lessOrEqual := ⟨trivial, trivial, id⟩

end Verif
