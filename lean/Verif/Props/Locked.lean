import Verif.Props.AnyOffers
import Verif.Props.Protocols
/-!
# C131: chosen versions over time

What becomes of the version that the program of C130 has chosen: when it is written to a lock file as `==`, when versions are
published later, when others are withdrawn, and when the same versions are listed in another order. The requirements are strings of
any kind.
-/

namespace Verif
open scoped Verif Classical

/-- The line of a lock file for the version that was printed. -/
def lockLine (s : PyStr) : PyStr := "==".toList ++ s

namespace Locked
open AnyOffers

theorem lock_set (lim : Nat) {o : Offer} (h : o.Written) : VSet.parse lim (lockLine o.text) = .ok (.item (.point (ver o))) := by
  have hp := C44_short ⟨.doubleEqual, ver o⟩ rfl (ver_canonical h) rfl (.inr (.inr (.inl rfl)))
  have e : (Specifier.one ⟨.doubleEqual, ver o⟩).toShortStr = lockLine o.text := by
    simp [Specifier.toShortStr, Operator.toShortStr, ver_short, lockLine, join, List.intercalate, OpType.isWildcard]
    rfl
  unfold VSet.parse
  rw [← e, hp]
  show (Specifier.one ⟨.doubleEqual, ver o⟩).toSet lim = _
  rw [Specifier.toSet]
  rfl

theorem point_contains (v w : Version) : (VSet.item (.point v)).contains w = true ↔ w ==ₚ v := by
  show PyCmp.eq v w = true ↔ _
  rw [veq_iff, veq_iff, eq_comm]

theorem offers_append {xs ys : List Offer} {offers more : List PyStr} (h : AllWritten xs offers) (h' : AllWritten ys more) :
    AllWritten (xs ++ ys) (offers ++ more) := List.rel_append h h'

theorem text_same {x y : Offer} (hx : x.Written) (hy : y.Written) (h : x.text = y.text) : ver x = ver y := by
  have h1 := text_parse hx
  rw [h, text_parse hy] at h1
  exact (Except.ok.inj h1).symm

/-- The set of the lock line and further requirements. -/
theorem lock_together {lim : Nat} {ts : List PyStr} {z : VSet} (h : together lim ts = .ok z) {x : Offer} (hx : x.Written) :
    ∃ u, together lim (lockLine x.text :: ts) = .ok u ∧ ∀ v, u.contains v = true ↔ v ==ₚ ver x ∧ z.contains v = true := by
  cases e : mapAll (VSet.parse lim) ts with
  | error _ => simp only [together, e] at h; cases h
  | ok l =>
    have e' : mapAll (VSet.parse lim) (lockLine x.text :: ts) = .ok (.item (.point (ver x)) :: l) := by
      simp only [mapAll, lock_set lim hx, e]; rfl
    obtain ⟨a, a1, -, a2⟩ := Together.intersectAll_spec lim l (Together.sets_normal e) .universal universal_normal
    obtain ⟨b, b1, -, b2⟩ := Together.intersectAll_spec lim _ (Together.sets_normal e') .universal universal_normal
    have : together lim ts = .ok a := by simp only [together, e]; exact a1
    rw [h] at this
    cases this
    refine ⟨b, by simp only [together, e']; exact b1, fun v => ?_⟩
    rw [b2, a2, List.forall_mem_cons, point_contains]
    exact and_left_comm

end Locked

open Locked AnyOffers

/-- C131. The version that was chosen, written to a lock file, is what is chosen from then on: by the lock line alone and by the lock
line with the requirements, from the same versions and from these with any later ones. -/
theorem C131_lock (lim : Nat) (ts : List PyStr) (xs : List Offer) (offers : List PyStr) (ho : AllWritten xs offers) (s : PyStr)
    (h : resolveText lim ts offers = .ok (some s)) (ys : List Offer) (more : List PyStr) (hm : AllWritten ys more) :
    resolveText lim [lockLine s] (offers ++ more) = .ok (some s) ∧
      resolveText lim (lockLine s :: ts) (offers ++ more) = .ok (some s) := by
  obtain ⟨z, hz⟩ := together_of h
  obtain ⟨l1, x, l2, e, rfl, hx, hl1, hl2⟩ := ((chosen_at hz ho).2 s).1 h
  have hn : ∀ y ∈ xs ++ ys, y.Written := (all_parse (offers_append ho hm)).2
  have hxn : x.Written := hn x (by simp [e])
  have same : ∀ y ∈ xs ++ ys, ver y ==ₚ ver x → ¬ x.Below y ∧ ¬ y.Below x := fun y hy hv => by
    rw [← ver_lt hxn (hn y hy), ← ver_lt (hn y hy) hxn, vlt_iff, vlt_iff, (veq_iff _ _).1 hv]
    exact ⟨lt_irrefl _, lt_irrefl _⟩
  have first : ∀ y ∈ l1, ¬ ver y ==ₚ ver x := fun y hy hv =>
    (same y (by simp [e, hy]) hv).2 (hl1 y hy ((contains_respects z hv).trans hx))
  have key : ∀ us u, together lim us = .ok u → (∀ v, u.contains v = true → v ==ₚ ver x) → u.contains (ver x) = true →
      resolveText lim us (offers ++ more) = .ok (some x.text) := fun us u h1 h2 h3 => by
    refine ((chosen_at h1 (offers_append ho hm)).2 _).2 ⟨l1, x, l2 ++ ys, by simp [e], rfl, h3, fun y hy hc => ?_, fun y hy hc => ?_⟩
    · exact absurd (h2 _ hc) (first y hy)
    · exact (same y (by rcases List.mem_append.1 hy with hy | hy <;> simp [e, hy]) (h2 _ hc)).1
  obtain ⟨u, u1, u2⟩ := lock_together hz hxn
  obtain ⟨w, w1, w2⟩ := lock_together (lim := lim) (ts := []) (z := .universal) rfl hxn
  have hs : ver x ==ₚ ver x := (veq_iff _ _).2 rfl
  exact ⟨key _ w w1 (fun v hv => ((w2 v).1 hv).1) ((w2 _).2 ⟨hs, rfl⟩), key _ u u1 (fun v hv => ((u2 v).1 hv).1) ((u2 _).2 ⟨hs, hx⟩)⟩

example : resolveText 5 ["^1.2 || ^3".toList] ["1.2".toList, "1.4.0".toList, "1.4".toList, "2".toList] = .ok (some "1.4.0".toList) ∧
    lockLine "1.4.0".toList = "==1.4.0".toList ∧
    resolveText 5 ["==1.4.0".toList] ["1.2".toList, "1.4.0".toList, "1.4".toList, "2".toList, "3".toList] = .ok (some "1.4.0".toList) ∧
    resolveText 5 ["^1.2 || ^3".toList] ["1.2".toList, "1.4.0".toList, "1.4".toList, "2".toList, "3".toList] = .ok (some "3".toList) := by
  decide +kernel

example : resolveText 5 [">=1".toList] ["1.0+cu".toList, "1".toList] = .ok (some "1.0+cu".toList) ∧
    resolveText 5 [lockLine "1.0+cu".toList, ">=1".toList] ["1.0+cu".toList, "1".toList, "v1+CU".toList, "1.1".toList] = .ok (some "1.0+cu".toList) := by
  decide +kernel

/-- C131. When one more version is published, the program still returns. It chooses what it has chosen before, or the new version,
and the latter only if that is above what was chosen before. -/
theorem C131_published (lim : Nat) (ts : List PyStr) (xs : List Offer) (offers : List PyStr) (ho : AllWritten xs offers)
    (r : Option PyStr) (h : resolveText lim ts offers = .ok r) (y : Offer) (t : PyStr) (ht : AllWritten [y] [t]) :
    resolveText lim ts (offers ++ [t]) = .ok r ∨
      resolveText lim ts (offers ++ [t]) = .ok (some y.text) ∧ ∀ x ∈ xs, r = some x.text → x.Below y := by
  obtain ⟨z, hz⟩ := together_of h
  have hn : ∀ y' ∈ xs ++ [y], y'.Written := (all_parse (offers_append ho ht)).2
  obtain ⟨c1, c2⟩ := chosen_at hz (offers_append ho ht)
  cases r with
  | none =>
    have hno := (chosen_at hz ho).1.1 h
    by_cases hy : z.contains (ver y) = true
    · exact .inr ⟨(c2 _).2 ⟨xs, y, [], rfl, rfl, hy, fun x hx hc => absurd hc (hno x hx), by simp⟩, by simp⟩
    · refine .inl (c1.2 fun x hx => ?_)
      rcases List.mem_append.1 hx with hx | hx
      · exact hno x hx
      · rwa [List.mem_singleton.1 hx]
  | some s =>
    obtain ⟨l1, x, l2, e, rfl, hx, hl1, hl2⟩ := ((chosen_at hz ho).2 s).1 h
    by_cases hy : z.contains (ver y) = true ∧ x.Below y
    · have hxn : x.Written := hn x (by simp [e])
      have hyn : y.Written := hn y (by simp)
      refine .inr ⟨(c2 _).2 ⟨xs, y, [], rfl, rfl, hy.1, fun w hw hc => ?_, by simp⟩, fun w hw hs => ?_⟩
      · have hwn : w.Written := hn w (by simp [hw])
        have hxy := hy.2
        rw [← ver_lt hxn hyn, vlt_iff] at hxy
        rw [← ver_lt hwn hyn, vlt_iff]
        rw [e, List.mem_append, List.mem_cons] at hw
        rcases hw with hw | rfl | hw
        · have := hl1 w hw hc
          rw [← ver_lt hwn hxn, vlt_iff] at this
          exact this.trans hxy
        · exact hxy
        · have := hl2 w hw hc
          rw [← ver_lt hxn hwn, vlt_iff, not_lt] at this
          exact this.trans_lt hxy
      · have hwn := hn w (by simp [hw])
        rw [← ver_lt hwn hyn, text_same hwn hxn (Option.some.inj hs).symm, ver_lt hxn hyn]
        exact hy.2
    · refine .inl ((c2 _).2 ⟨l1, x, l2 ++ [y], by simp [e], rfl, hx, hl1, fun w hw hc => ?_⟩)
      rcases List.mem_append.1 hw with hw | hw
      · exact hl2 w hw hc
      · rw [List.mem_singleton.1 hw] at hc ⊢
        exact fun hb => hy ⟨hc, hb⟩

example : resolveText 5 [">1,<3".toList] ["2".toList] = .ok (some "2".toList) ∧
    resolveText 5 [">1,<3".toList] ["2".toList, "2.5".toList] = .ok (some "2.5".toList) ∧
    resolveText 5 [">1,<3".toList] ["2".toList, "3".toList] = .ok (some "2".toList) ∧
    resolveText 5 [">1,<3".toList] ["2".toList, "2.0".toList] = .ok (some "2".toList) := by decide +kernel

/-- C131. Withdrawing a version that was not chosen changes nothing. -/
theorem C131_withdrawn (lim : Nat) (ts : List PyStr) (xs ys : List Offer) (x : Offer) (offers more : List PyStr) (t : PyStr)
    (ho : AllWritten xs offers) (ht : AllWritten [x] [t]) (hm : AllWritten ys more) (r : Option PyStr)
    (h : resolveText lim ts (offers ++ [t] ++ more) = .ok r) (hr : r ≠ some x.text) : resolveText lim ts (offers ++ more) = .ok r := by
  obtain ⟨z, hz⟩ := together_of h
  have h1 := chosen_at hz (offers_append (offers_append ho ht) hm)
  have h2 := chosen_at hz (offers_append ho hm)
  cases r with
  | none =>
    refine h2.1.2 fun y hy => h1.1.1 h y ?_
    rcases List.mem_append.1 hy with hy | hy <;> simp [hy]
  | some s =>
    obtain ⟨l1, w, l2, e, rfl, hw, hl1, hl2⟩ := (h1.2 s).1 h
    refine (h2.2 _).2 ?_
    have hne : w ≠ x := fun he => hr (he ▸ rfl)
    rw [List.append_assoc, List.append_eq_append_iff] at e
    rcases e with ⟨k, rfl, e⟩ | ⟨k, rfl, e⟩
    · cases k with
      | nil => cases e; exact absurd rfl hne
      | cons a k =>
        rw [List.singleton_append, List.cons_append, List.cons.injEq] at e
        obtain ⟨rfl, rfl⟩ := e
        exact ⟨xs ++ k, w, l2, by simp, rfl, hw, fun y hy => hl1 y (by rcases List.mem_append.1 hy with hy | hy <;> simp [hy]), hl2⟩
    · cases k with
      | nil => cases e; exact absurd rfl hne
      | cons a k =>
        rw [List.cons_append, List.cons.injEq] at e
        obtain ⟨rfl, rfl⟩ := e
        exact ⟨l1, w, k ++ ys, by simp, rfl, hw, hl1, fun y hy => hl2 y (by rcases List.mem_append.1 hy with hy | hy <;> simp [hy])⟩

example : resolveText 5 ["~1.2 || 0".toList] ["1.2.1".toList, "1.2.4".toList, "0".toList] = .ok (some "1.2.4".toList) ∧
    resolveText 5 ["~1.2 || 0".toList] ["1.2.4".toList, "0".toList] = .ok (some "1.2.4".toList) ∧
    resolveText 5 ["~1.2 || 0".toList] ["1.2.1".toList, "0".toList] = .ok (some "1.2.1".toList) := by decide +kernel

/-- C131. From the same versions in another order the same one is chosen, up to its spelling. -/
theorem C131_offers (lim : Nat) (ts : List PyStr) (xs ys : List Offer) (offers others : List PyStr) (ho : AllWritten xs offers)
    (ho' : AllWritten ys others) (hp : ∀ x, x ∈ xs ↔ x ∈ ys) (r : Option PyStr) (h : resolveText lim ts offers = .ok r) :
    (r = none ∧ resolveText lim ts others = .ok none) ∨
      ∃ x ∈ xs, ∃ y ∈ xs, r = some x.text ∧ resolveText lim ts others = .ok (some y.text) ∧ x.Same y := by
  obtain ⟨z, hz⟩ := together_of h
  have h1 := chosen_at hz ho
  have h2 := chosen_at hz ho'
  have hn := (all_parse ho).2
  have most : ∀ {zs l1 l2 : List Offer} {x : Offer}, (∀ y ∈ zs, y.Written) → zs = l1 ++ x :: l2 →
      (∀ y ∈ l1, z.contains (ver y) = true → y.Below x) → (∀ y ∈ l2, z.contains (ver y) = true → ¬ x.Below y) →
      ∀ y ∈ zs, z.contains (ver y) = true → (ver y).key ≤ (ver x).key := fun {zs l1 l2 x} hn e a b y hy hc => by
    have hxn := hn x (by simp [e])
    have hyn := hn y hy
    rw [e, List.mem_append, List.mem_cons] at hy
    rcases hy with hy | rfl | hy
    · have := a y hy hc
      rw [← ver_lt hyn hxn, vlt_iff] at this
      exact this.le
    · exact le_rfl
    · have := b y hy hc
      rwa [← ver_lt hxn hyn, vlt_iff, not_lt] at this
  cases r with
  | none => exact .inl ⟨rfl, h2.1.2 fun y hy => h1.1.1 h y ((hp y).2 hy)⟩
  | some s =>
    obtain ⟨l1, x, l2, e, rfl, hx, hl1, hl2⟩ := (h1.2 s).1 h
    have hxm : x ∈ xs := by simp [e]
    have hs := resolve_set hz ho'
    generalize PickText.chosen _ = c at hs
    cases c with
    | none => exact absurd hx (h2.1.1 hs x ((hp x).1 hxm))
    | some q =>
      obtain ⟨k1, y, k2, e', rfl, hy, hk1, hk2⟩ := (h2.2 q).1 hs
      have hym : y ∈ xs := (hp y).2 (by simp [e'])
      refine .inr ⟨x, hxm, y, hym, rfl, hs, ?_⟩
      rw [← ver_eq (hn x hxm) (hn y hym), veq_iff]
      exact le_antisymm (most ((all_parse ho').2) e' hk1 hk2 x ((hp x).1 hxm) hx) (most hn e hl1 hl2 y hym hy)

example : resolveText 5 [">1".toList] ["2".toList, "2.0".toList, "1".toList] = .ok (some "2".toList) ∧
    resolveText 5 [">1".toList] ["1".toList, "2.0".toList, "2".toList] = .ok (some "2.0".toList) := by decide +kernel

end Verif
