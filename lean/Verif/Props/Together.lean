import Verif.Props.PickText
import Verif.Props.AnySpelling
/-!
# C130: several requirements on one package

What an installer does with the requirements that several packages have on the same one: it reads each as a version set, intersects
the sets, and chooses the greatest version on offer that the intersection contains.
-/

namespace Verif
open scoped Verif Classical
open Choosing

/-- `functools.reduce(lambda a, b: a.intersection(b), sets, VersionRange())`. -/
def intersectAll (lim : Nat) : VSet → List VSet → Except PyErr VSet
  | x, [] => .ok x
  | x, y :: l => do intersectAll lim (← x.intersection lim y) l

/-- The set of all requirements: each read by `parse_version_set`, then intersected. -/
def together (lim : Nat) (requirements : List PyStr) : Except PyErr VSet := do
  intersectAll lim .universal (← mapAll (VSet.parse lim) requirements)

/-- `max((v for v in map(parse_version, offers) if v in together(requirements)), default=None)`, printed by `to_short_string`. -/
def resolveText (lim : Nat) (requirements offers : List PyStr) : Except PyErr (Option PyStr) := do
  let x ← together lim requirements
  let versions ← mapAll Version.parse offers
  .ok (PickText.chosen (versions.filter x.contains))

/-- The requirements are formulas, in any spelling and with whitespace anywhere. -/
def RequirementsWritten (fs : List (List (List Wish))) (requirements : List PyStr) : Prop :=
  List.Forall₂ (fun f t => FormulaWritten f (t.filter (fun c => !isSpace c))) fs requirements

/-- The strings are public versions, in any spelling. -/
def OffersWritten (xs : List Pub) (offers : List PyStr) : Prop :=
  List.Forall₂ (fun x t => ∃ p, (Offer.plain x).WrittenAs p ∧ p.text = t) xs offers

/-- The version satisfies all formulas. -/
def Pub.Suits (fs : List (List (List Wish))) (x : Pub) : Prop := ∀ f ∈ fs, ∃ g ∈ f, ∀ w ∈ g, w.Holds (.plain x)

namespace Together

theorem offers_parse {xs : List Pub} {offers : List PyStr} (h : OffersWritten xs offers) :
    mapAll Version.parse offers = .ok (xs.map FromPublic.ver) ∧ ∀ x ∈ xs, ∃ p, (Offer.plain x).WrittenAs p := by
  induction h with
  | nil => exact ⟨rfl, by simp⟩
  | cons h _ ih =>
    obtain ⟨p, hp, rfl⟩ := h
    refine ⟨?_, ?_⟩
    · simp only [mapAll, AnySpelling.offer_parse hp, ih.1, List.map_cons]; rfl
    · rintro x (_ | ⟨_, hx⟩)
      · exact ⟨p, hp⟩
      · exact ih.2 x hx

theorem intersectAll_spec (lim : Nat) (l : List VSet) (hl : ∀ y ∈ l, y.Normal) (x : VSet) (hx : x.Normal) :
    ∃ z, intersectAll lim x l = .ok z ∧ z.Normal ∧ ∀ v, z.contains v = true ↔ x.contains v = true ∧ ∀ y ∈ l, y.contains v = true := by
  induction l generalizing x with
  | nil => exact ⟨x, rfl, hx, by simp⟩
  | cons y l ih =>
    obtain ⟨s, h1, h2⟩ := C20_intersection_exact x y hx (hl y (by simp))
    have hn := C19_normal_closed x y s hx (hl y (by simp)) lim (.inl (h1 lim))
    obtain ⟨z, h3, h4, h5⟩ := ih (fun y hy => hl y (by simp [hy])) s hn
    refine ⟨z, by simp only [intersectAll, h1 lim]; exact h3, h4, fun v => ?_⟩
    rw [h5, h2, ← vset_contains_iff_mem, ← vset_contains_iff_mem]
    simp [and_assoc]

theorem sets_normal {lim : Nat} {ts : List PyStr} {l : List VSet} (h : mapAll (VSet.parse lim) ts = .ok l) : ∀ y ∈ l, y.Normal := by
  induction ts generalizing l with
  | nil => cases h; simp
  | cons t ts ih =>
    simp only [mapAll] at h
    cases e : VSet.parse lim t with
    | error _ => rw [e] at h; cases h
    | ok y =>
      rw [e] at h
      cases e' : mapAll (VSet.parse lim) ts with
      | error _ => rw [e'] at h; cases h
      | ok l' =>
        rw [e'] at h
        cases h
        rintro z (_ | ⟨_, hz⟩)
        · exact (C53_set lim t y e).1
        · exact ih e' z hz

theorem sets_hold {lim : Nat} {fs : List (List (List Wish))} {ts : List PyStr} (hw : RequirementsWritten fs ts) {l : List VSet}
    (h : mapAll (VSet.parse lim) ts = .ok l) {x : Pub} {p : Spelling} (hp : (Offer.plain x).WrittenAs p) :
    (∀ y ∈ l, y.contains (FromPublic.ver x) = true) ↔ x.Suits fs := by
  induction hw generalizing l with
  | nil => cases h; simp [Pub.Suits]
  | @cons f t fs ts hf _ ih =>
    simp only [mapAll] at h
    cases e : VSet.parse lim t with
    | error _ => rw [e] at h; cases h
    | ok y =>
      rw [e] at h
      cases e' : mapAll (VSet.parse lim) ts with
      | error _ => rw [e'] at h; cases h
      | ok l' =>
        rw [e'] at h
        cases h
        obtain ⟨v, hv, h1⟩ := C129_set f t hf _ p hp lim y e
        rw [AnySpelling.offer_parse hp] at hv
        cases hv
        simp only [List.forall_mem_cons, ih e', Pub.Suits]
        exact and_congr_left fun _ => h1

/-- What the program does once the sets are read. -/
theorem resolve_eq {lim : Nat} {fs : List (List (List Wish))} {ts : List PyStr} (hw : RequirementsWritten fs ts) {xs : List Pub}
    {offers : List PyStr} (ho : OffersWritten xs offers) {l : List VSet} (h : mapAll (VSet.parse lim) ts = .ok l) :
    resolveText lim ts offers = .ok (PickText.chosen ((xs.filter fun x => decide (x.Suits fs)).map FromPublic.ver)) := by
  obtain ⟨z, h1, -, h2⟩ := intersectAll_spec lim l (sets_normal h) .universal universal_normal
  obtain ⟨o1, o2⟩ := offers_parse ho
  have ht : together lim ts = .ok z := by simp only [together, h]; exact h1
  simp only [resolveText, ht, o1]
  show Except.ok _ = _
  rw [List.filter_map]
  congr 3
  refine List.filter_congr fun x hx => ?_
  obtain ⟨p, hp⟩ := o2 x hx
  have : z.contains (FromPublic.ver x) = true ↔ x.Suits fs := by
    rw [h2, sets_hold hw h hp]
    exact and_iff_right rfl
  simp only [Function.comp]
  rw [Bool.eq_iff_iff, this, decide_eq_true_iff]

theorem offers_numbers {xs : List Pub} {offers : List PyStr} (h : OffersWritten xs offers) : ∀ x ∈ xs, x.numbers ≠ [] := fun x hx => by
  obtain ⟨p, hp⟩ := (offers_parse h).2 x hx
  exact AnySpelling.numbers_ne hp.1

theorem first_error {lim : Nat} {ts : List PyStr} {e : PyErr} : mapAll (VSet.parse lim) ts = .error e ↔
    ∃ l1 t l2, ts = l1 ++ t :: l2 ∧ (∀ u ∈ l1, ∃ z, VSet.parse lim u = .ok z) ∧ VSet.parse lim t = .error e := by
  induction ts with
  | nil => simp [mapAll]
  | cons t ts ih =>
    simp only [mapAll]
    cases ht : VSet.parse lim t with
    | error e' =>
      constructor
      · intro h
        cases h
        exact ⟨[], t, ts, rfl, by simp, ht⟩
      · rintro ⟨l1, u, l2, h1, h2, h3⟩
        cases l1 with
        | nil => cases h1; rw [ht] at h3; cases h3; rfl
        | cons a l1 =>
          cases h1
          obtain ⟨z, hz⟩ := h2 t (by simp)
          rw [ht] at hz; cases hz
    | ok y =>
      have : (mapAll (VSet.parse lim) ts = .error e ↔ (do let bs ← mapAll (VSet.parse lim) ts; Except.ok (y :: bs)) = .error e) := by
        cases mapAll (VSet.parse lim) ts with
        | error _ => rfl
        | ok _ => constructor <;> rintro ⟨⟩
      refine this.symm.trans (ih.trans ?_)
      constructor
      · rintro ⟨l1, u, l2, rfl, h2, h3⟩
        exact ⟨t :: l1, u, l2, rfl, by simpa using ⟨⟨y, ht⟩, h2⟩, h3⟩
      · rintro ⟨l1, u, l2, h1, h2, h3⟩
        cases l1 with
        | nil => cases h1; rw [ht] at h3; cases h3
        | cons a l1 =>
          cases h1
          exact ⟨l1, u, l2, rfl, fun w hw => h2 w (by simp [hw]), h3⟩

end Together

open Together

/-- C130. If the program returns, it prints nothing exactly if no version on offer satisfies all the requirements, and else the
greatest one that does, in the prescribed spelling. -/
theorem C130_resolve (lim : Nat) (fs : List (List (List Wish))) (ts : List PyStr) (hw : RequirementsWritten fs ts) (xs : List Pub)
    (offers : List PyStr) (ho : OffersWritten xs offers) (r : Option PyStr) (h : resolveText lim ts offers = .ok r) :
    (r = none ↔ ∀ x ∈ xs, ¬ x.Suits fs) ∧
      ∀ s, r = some s ↔ ∃ l1 x l2, xs = l1 ++ x :: l2 ∧ x.text = s ∧ x.Suits fs ∧
        (∀ y ∈ l1, y.Suits fs → y.Below x) ∧ ∀ y ∈ l2, y.Suits fs → ¬ x.Below y := by
  cases e : mapAll (VSet.parse lim) ts with
  | error _ => simp only [resolveText, together, e] at h; cases h
  | ok l =>
    rw [resolve_eq hw ho e] at h
    cases h
    exact PickText.chosen_iff _ xs (offers_numbers ho)

/-- C130. It fails exactly if one of the requirements cannot be made a version set, and then as the first of those does. -/
theorem C130_fails (lim : Nat) (fs : List (List (List Wish))) (ts : List PyStr) (hw : RequirementsWritten fs ts) (xs : List Pub)
    (offers : List PyStr) (ho : OffersWritten xs offers) (e : PyErr) :
    resolveText lim ts offers = .error e ↔
      ∃ l1 t l2, ts = l1 ++ t :: l2 ∧ (∀ u ∈ l1, ∃ z, VSet.parse lim u = .ok z) ∧ VSet.parse lim t = .error e := by
  rw [← first_error]
  cases e' : mapAll (VSet.parse lim) ts with
  | error _ => simp only [resolveText, together, e']; constructor <;> (rintro ⟨⟩; rfl)
  | ok l =>
    rw [resolve_eq hw ho e']
    constructor <;> rintro ⟨⟩

namespace Together

theorem mapAll_mem {α β : Type} {f : α → Except PyErr β} {l : List α} {m : List β} (h : mapAll f l = .ok m) (b : β) :
    b ∈ m ↔ ∃ a ∈ l, f a = .ok b := by
  induction l generalizing m with
  | nil => cases h; simp
  | cons a l ih =>
    simp only [mapAll] at h
    cases e : f a with
    | error _ => rw [e] at h; cases h
    | ok y =>
      rw [e] at h
      cases e' : mapAll f l with
      | error _ => rw [e'] at h; cases h
      | ok l' =>
        rw [e'] at h
        cases h
        rw [List.mem_cons, ih e', List.exists_mem_cons_iff, e, Except.ok.injEq, eq_comm]

theorem mapAll_ok {α β : Type} {f : α → Except PyErr β} {l : List α} : (∃ m, mapAll f l = .ok m) ↔ ∀ a ∈ l, ∃ b, f a = .ok b := by
  induction l with
  | nil => simp [mapAll]
  | cons a l ih =>
    simp only [List.forall_mem_cons, ← ih, mapAll]
    cases e : f a with
    | error _ => exact ⟨(by rintro ⟨_, ⟨⟩⟩), (by rintro ⟨⟨_, ⟨⟩⟩, -⟩)⟩
    | ok y =>
      cases e' : mapAll f l with
      | error _ => exact ⟨(by rintro ⟨_, ⟨⟩⟩), (by rintro ⟨-, _, ⟨⟩⟩)⟩
      | ok l' => exact ⟨fun _ => ⟨⟨_, rfl⟩, ⟨_, rfl⟩⟩, fun _ => ⟨_, rfl⟩⟩

theorem same {lim : Nat} {ts us offers : List PyStr} (h : ∀ t, t ∈ ts ↔ t ∈ us) {r : Option PyStr}
    (hr : resolveText lim ts offers = .ok r) : resolveText lim us offers = .ok r := by
  cases e : mapAll (VSet.parse lim) ts with
  | error _ => simp only [resolveText, together, e] at hr; cases hr
  | ok l =>
    obtain ⟨m, em⟩ := (mapAll_ok (f := VSet.parse lim) (l := us)).2 fun t ht => mapAll_ok.1 ⟨l, e⟩ t ((h t).2 ht)
    obtain ⟨z, h1, -, h2⟩ := intersectAll_spec lim l (sets_normal e) .universal universal_normal
    obtain ⟨z', h1', -, h2'⟩ := intersectAll_spec lim m (sets_normal em) .universal universal_normal
    have hz : z.contains = z'.contains := by
      funext v
      rw [Bool.eq_iff_iff, h2, h2']
      refine and_congr Iff.rfl (forall_congr' fun y => ?_)
      rw [mapAll_mem e, mapAll_mem em]
      simp only [h]
    have ht : together lim ts = .ok z := by simp only [together, e]; exact h1
    have hu : together lim us = .ok z' := by simp only [together, em]; exact h1'
    simp only [resolveText, ht] at hr
    simp only [resolveText, hu, ← hr]
    show (mapAll Version.parse offers >>= _) = (mapAll Version.parse offers >>= _)
    rw [hz]

end Together

/-- Three packages ask for a fourth one, of which five versions are on offer. -/
example : resolveText 5 ["^1.2".toList, ">=1.3 || ==1.1".toList, "!= v1.5.x".toList]
    ["1.5.2".toList, "v1.4-rc".toList, "1.3".toList, "2".toList, "1.1".toList] = .ok (some "1.4rc0".toList) := by decide +kernel
example : RequirementsWritten [[[.on ⟨.caret, { numbers := [1, 2] }⟩]]] ["^ 1.2".toList] ∧
    OffersWritten [{ numbers := [1, 4], pre := some (.rc, 0) }] ["v1.4-rc".toList] := by
  refine ⟨.cons ⟨"^1.2".toList, [], by decide +kernel, .cons ⟨"^1.2".toList, [], by simp, .cons ?_ .nil⟩ .nil⟩ .nil, .cons ?_ .nil⟩
  · exact Wish.WrittenAs.sign (s := .caret) (p := ⟨[], none, "1".toList, ["2".toList], none, none, none, none⟩)
      rfl ⟨by decide +kernel, by decide +kernel, rfl, by decide, trivial, trivial, trivial⟩ rfl (by simp)
  · exact ⟨⟨['v'], none, "1".toList, ["4".toList], some ⟨"-".toList, "rc".toList, none⟩, none, none, none⟩,
      ⟨⟨by decide +kernel, by decide +kernel, rfl, by decide, ⟨by decide, rfl⟩, trivial, trivial⟩, rfl⟩, by decide +kernel⟩
/-- `^` on a development release of a post-release cannot be made a version set. -/
example : resolveText 5 [">=1".toList, "^0.1.post1.dev1".toList] ["1".toList] = .error .valueError := by decide +kernel

/-- C130. The order in which the requirements come, and how often the same one comes, is of no consequence, whatever the strings. -/
theorem C130_order (lim : Nat) (ts us offers : List PyStr) (h : ∀ t, t ∈ ts ↔ t ∈ us) (r : Option PyStr) :
    resolveText lim ts offers = .ok r ↔ resolveText lim us offers = .ok r :=
  ⟨same h, same fun t => (h t).symm⟩

example : resolveText 5 [">1".toList, "<3".toList] ["2".toList, "3".toList] = .ok (some "2".toList) ∧
    resolveText 5 ["<3".toList, "<3".toList, ">1".toList] ["2".toList, "3".toList] = .ok (some "2".toList) := by decide +kernel

/-- C130. If with a further requirement some version is chosen, then one was chosen without it, not a smaller one, and the same one
if that satisfies the further requirement. -/
theorem C130_further (lim : Nat) (fs : List (List (List Wish))) (ts : List PyStr) (hw : RequirementsWritten fs ts) (f : List (List Wish))
    (t : PyStr) (ht : FormulaWritten f (t.filter (fun c => !isSpace c))) (xs : List Pub) (offers : List PyStr) (ho : OffersWritten xs offers)
    (s : PyStr) (h : resolveText lim (t :: ts) offers = .ok (some s)) :
    ∃ x ∈ xs, x.text = s ∧ ∃ y ∈ xs, resolveText lim ts offers = .ok (some y.text) ∧ ¬ y.Below x ∧
      ((∃ g ∈ f, ∀ w ∈ g, w.Holds (.plain y)) → y.text = s) := by
  obtain ⟨-, h2⟩ := C130_resolve lim (f :: fs) (t :: ts) (.cons ht hw) xs offers ho _ h
  obtain ⟨l1, x, l2, e, rfl, hx, hl1, hl2⟩ := (h2 s).1 rfl
  have hxm : x ∈ xs := by rw [e]; simp
  have hl : ∃ l, mapAll (VSet.parse lim) ts = .ok l := by
    cases e' : mapAll (VSet.parse lim) (t :: ts) with
    | error _ => simp only [resolveText, together, e'] at h; cases h
    | ok l => exact mapAll_ok.2 fun a ha => mapAll_ok.1 ⟨l, e'⟩ a (by simp [ha])
  obtain ⟨l, hl⟩ := hl
  have hr := resolve_eq hw ho hl
  obtain ⟨n, q⟩ := C130_resolve lim fs ts hw xs offers ho _ hr
  have hxs : x.Suits fs := fun g hg => hx g (by simp [hg])
  cases hc : PickText.chosen ((xs.filter fun x => decide (x.Suits fs)).map FromPublic.ver) with
  | none => exact absurd hxs (n.1 hc x hxm)
  | some s =>
    obtain ⟨k1, y, k2, e', rfl, hy, hk1, hk2⟩ := (q s).1 hc
    have hym : y ∈ xs := by rw [e']; simp
    refine ⟨x, hxm, rfl, y, hym, by rw [hr, hc], ?_, ?_⟩
    · have hn := offers_numbers ho
      rw [e', List.mem_append, List.mem_cons] at hxm
      rw [← FromPublic.ver_lt (hn y hym) (hn x (by rw [e]; simp)), vlt_iff, not_lt]
      rcases hxm with hxm | rfl | hxm
      · have := hk1 x hxm hxs
        rw [← FromPublic.ver_lt (hn x (by rw [e]; simp)) (hn y hym), vlt_iff] at this
        exact this.le
      · exact le_rfl
      · have := hk2 x hxm hxs
        rwa [← FromPublic.ver_lt (hn y hym) (hn x (by rw [e]; simp)), vlt_iff, not_lt] at this
    · intro hf
      have := (h2 y.text).2 ⟨k1, y, k2, e', rfl, by simpa [Pub.Suits] using ⟨hf, hy⟩, fun z hz sz => hk1 z hz fun g hg => sz g (by simp [hg]),
        fun z hz sz => hk2 z hz fun g hg => sz g (by simp [hg])⟩
      exact (Option.some.inj this).symm

example : resolveText 5 [">1".toList] ["2".toList, "3".toList] = .ok (some "3".toList) ∧
    resolveText 5 ["<3".toList, ">1".toList] ["2".toList, "3".toList] = .ok (some "2".toList) := by decide +kernel

namespace Together

theorem group_append {g h : List Wish} {a b : PyStr} (hg : GroupWritten g a) (hh : GroupWritten h b) : GroupWritten (g ++ h) (a ++ ',' :: b) := by
  obtain ⟨c, l, rfl, h1⟩ := hg
  obtain ⟨d, m, rfl, h2⟩ := hh
  exact ⟨c, l ++ d :: m, by simp, List.rel_append h1 h2⟩

theorem single_group {g : List Wish} {s : PyStr} : FormulaWritten [g] s ↔ GroupWritten g s := by
  constructor
  · rintro ⟨a, l, rfl, h⟩
    cases l with
    | nil => cases h with | cons h _ => simpa [pipes] using h
    | cons _ _ => cases h with | cons _ h => cases h
  · intro h
    exact ⟨s, [], by simp [pipes], .cons h .nil⟩

theorem joined {gs : List (List Wish)} {ts : List PyStr} (h : RequirementsWritten (gs.map fun g => [g]) ts) (hn : ts ≠ []) :
    FormulaWritten [gs.flatten] ((List.intercalate [','] ts).filter (fun c => !isSpace c)) := by
  rw [single_group]
  induction ts generalizing gs with
  | nil => exact absurd rfl hn
  | cons t ts ih =>
    cases gs with
    | nil => cases h
    | cons g gs =>
      rw [List.map_cons] at h
      cases h with
      | cons h1 h2 =>
        rw [single_group] at h1
        cases ts with
        | nil =>
          cases gs with
          | nil => simpa [List.intercalate] using h1
          | cons _ _ => cases h2
        | cons u us =>
          have e : (List.intercalate [','] (t :: u :: us)).filter (fun c => !isSpace c) =
              t.filter (fun c => !isSpace c) ++ ',' :: (List.intercalate [','] (u :: us)).filter (fun c => !isSpace c) := by
            have : isSpace ',' = false := by decide
            simp [List.intercalate, List.intersperse, List.filter_append, this]
          rw [e, List.flatten_cons]
          exact group_append h1 (ih h2 (by simp))

end Together

/-- C130. Requirements without `|` may as well be joined by commas and read as one. -/
theorem C130_joined (lim : Nat) (gs : List (List Wish)) (ts : List PyStr) (hw : RequirementsWritten (gs.map fun g => [g]) ts) (hn : ts ≠ [])
    (xs : List Pub) (offers : List PyStr) (ho : OffersWritten xs offers) (r q : Option PyStr) (hr : resolveText lim ts offers = .ok r)
    (hq : resolveText lim [List.intercalate [','] ts] offers = .ok q) : q = r := by
  have hj : RequirementsWritten [[gs.flatten]] [List.intercalate [','] ts] := .cons (joined hw hn) .nil
  have e : ∀ x : Pub, x.Suits [[gs.flatten]] ↔ x.Suits (gs.map fun g => [g]) := fun x => by
    simp only [Pub.Suits, List.mem_singleton, forall_eq, exists_eq_left, List.mem_map, forall_exists_index, and_imp, forall_apply_eq_imp_iff₂,
      List.mem_flatten]
    exact ⟨fun h g hg w hw => h w g hg hw, fun h w g hg hw => h g hg w hw⟩
  cases e1 : mapAll (VSet.parse lim) ts with
  | error _ => simp only [resolveText, together, e1] at hr; cases hr
  | ok l =>
    cases e2 : mapAll (VSet.parse lim) [List.intercalate [','] ts] with
    | error _ => simp only [resolveText, together, e2] at hq; cases hq
    | ok m =>
      rw [resolve_eq hw ho e1] at hr
      rw [resolve_eq hj ho e2] at hq
      simp only [e] at hq
      exact Except.ok.inj (hq.symm.trans hr)

/-- Joining by commas with `|` inside is another matter. -/
example : resolveText 5 [">1".toList, "<3".toList] ["2".toList, "3".toList] = .ok (some "2".toList) ∧
    resolveText 5 [">1,<3".toList] ["2".toList, "3".toList] = .ok (some "2".toList) ∧
    resolveText 5 ["==1 | >2".toList, "<3".toList] ["1".toList] = .ok (some "1".toList) ∧
    resolveText 5 ["<3".toList, "==5 | >2".toList] ["6".toList] = .ok none ∧
    resolveText 5 ["<3,==5 | >2".toList] ["6".toList] = .ok (some "6".toList) := by decide +kernel

end Verif
