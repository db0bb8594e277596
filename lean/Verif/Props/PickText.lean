import Verif.Props.Choosing
import Verif.Props.FromPublic
/-!
# C127: choosing from published versions, from text to text

The programs that clients write around the package: read a requirement and the versions on offer, keep those that are accepted,
take the greatest and print it; or read versions, sort them and print them. What comes out is said about the strings alone.
-/

namespace Verif
open scoped Verif Classical
open FromPublic Choosing

/-- `max((v for v in map(parse_version, offers) if parse_specifier(requirement).accepts(v)), default=None)`, printed by
`to_short_string`. -/
def pickText (requirement : PyStr) (offers : List PyStr) : Except PyErr (Option PyStr) := do
  let s ← Specifier.parse requirement
  let versions ← mapAll Version.parse offers
  match ← acceptedOf s versions with
  | [] => .ok none
  | v :: l => .ok (some (pyMax v l).toShortStr)

/-- `[v.to_short_string() for v in sorted(map(parse_version, texts))]`. -/
def sortTexts (texts : List PyStr) : Except PyErr (List PyStr) := do
  let versions ← mapAll Version.parse texts
  .ok ((pySorted versions).map Version.toShortStr)

/-- One of the groups holds. -/
def Pub.Meets (f : List (List Ask)) (x : Pub) : Prop := ∃ l ∈ f, ∀ q ∈ l, q.Holds x

namespace PickText

theorem texts_parse (xs : List Pub) (hx : ∀ x ∈ xs, x.numbers ≠ []) : mapAll Version.parse (xs.map Pub.text) = .ok (xs.map ver) := by
  induction xs with
  | nil => rfl
  | cons x l ih =>
    simp only [List.map_cons, mapAll, pub_parse (hx x (by simp)), ih (fun y hy => hx y (by simp [hy]))]
    rfl

theorem accepted (s : Specifier) (hv : s.Valid) (f : List (List Ask))
    (hs : ∀ x : Pub, x.numbers ≠ [] → (s.accepts (ver x) = .ok true ↔ x.Meets f)) (xs : List Pub) (hx : ∀ x ∈ xs, x.numbers ≠ []) :
    acceptedOf s (xs.map ver) = .ok ((xs.filter fun x => decide (x.Meets f)).map ver) := by
  induction xs with
  | nil => rfl
  | cons x l ih =>
    obtain ⟨b, hb⟩ := C32_accepts_total s hv (ver x)
    have h := hs x (hx x (by simp))
    rw [hb] at h
    simp only [List.map_cons, acceptedOf, hb, ih (fun y hy => hx y (by simp [hy]))]
    by_cases m : x.Meets f
    · have : b = true := by simpa using h.2 m
      subst this
      rw [List.filter_cons_of_pos (by simpa using m)]; rfl
    · have : b = false := by
        cases b
        · rfl
        · exact absurd (h.1 rfl) m
      subst this
      rw [List.filter_cons_of_neg (by simpa using m)]; rfl

theorem ver_injective : Function.Injective ver := by
  rintro ⟨e, l, p, q, d⟩ ⟨e', l', p', q', d'⟩ h
  have hf : Function.Injective phase := by
    intro f g h
    revert h
    cases f <;> cases g <;> decide
  simp only [ver, Version.mk.injEq, Epoch.mk.injEq, Release.mk.injEq, Int.natCast_inj, and_true] at h
  obtain ⟨h1, h2, h3, h4, h5⟩ := h
  have h2 := List.map_injective_iff.2 (fun a b h => Int.ofNat.inj h) h2
  have h3 : p = p' := by
    refine Option.map_injective ?_ h3
    rintro ⟨f, m⟩ ⟨g, n⟩ h
    simp only [Tag.mk.injEq, Int.natCast_inj] at h
    exact Prod.ext (hf h.1) h.2
  have h4 : q = q' := by
    refine Option.map_injective ?_ h4
    intro m n h
    simpa only [Tag.mk.injEq, true_and, Int.natCast_inj] using h
  have h5 : d = d' := by
    refine Option.map_injective ?_ h5
    intro m n h
    simpa only [Tag.mk.injEq, true_and, Int.natCast_inj] using h
  subst h1 h2 h3 h4 h5
  rfl

/-- The greatest, and among equal ones the first. -/
theorem max_iff (a : Pub) (l : List Pub) (h : ∀ x ∈ a :: l, x.numbers ≠ []) (m : Pub) :
    pyMax (ver a) (l.map ver) = ver m ↔ ∃ l1 l2, a :: l = l1 ++ m :: l2 ∧ (∀ y ∈ l1, y.Below m) ∧ ∀ y ∈ l2, ¬ m.Below y := by
  rw [C116_max]
  constructor
  · rintro ⟨k1, k2, h1, h2, h3⟩
    rw [← List.map_cons, List.map_eq_append_iff] at h1
    obtain ⟨l1, l', e, rfl, h4⟩ := h1
    rw [List.map_eq_cons_iff] at h4
    obtain ⟨m', l2, rfl, e', rfl⟩ := h4
    have := ver_injective e'
    subst this
    rw [e] at h
    refine ⟨l1, l2, e, fun y hy => ?_, fun y hy => ?_⟩
    · exact (ver_lt (h y (by simp [hy])) (h m' (by simp))).1 (h2 _ (List.mem_map_of_mem hy))
    · exact (ver_le (h y (by simp [hy])) (h m' (by simp))).1 (h3 _ (List.mem_map_of_mem hy))
  · rintro ⟨l1, l2, e, h2, h3⟩
    rw [e] at h
    refine ⟨l1.map ver, l2.map ver, by rw [← List.map_cons, e]; simp, fun v hv => ?_, fun v hv => ?_⟩
    · obtain ⟨y, hy, rfl⟩ := List.mem_map.1 hv
      exact (ver_lt (h y (by simp [hy])) (h m (by simp))).2 (h2 y hy)
    · obtain ⟨y, hy, rfl⟩ := List.mem_map.1 hv
      exact (ver_le (h y (by simp [hy])) (h m (by simp))).2 (h3 y hy)

/-- The greatest of the versions, printed. -/
def chosen : List Version → Option PyStr
  | [] => none
  | v :: l => some (pyMax v l).toShortStr

theorem chosen_iff (P : Pub → Prop) (xs : List Pub) (hx : ∀ x ∈ xs, x.numbers ≠ []) :
    (chosen ((xs.filter fun x => decide (P x)).map ver) = none ↔ ∀ x ∈ xs, ¬ P x) ∧
      ∀ s, chosen ((xs.filter fun x => decide (P x)).map ver) = some s ↔ ∃ l1 x l2, xs = l1 ++ x :: l2 ∧ x.text = s ∧ P x ∧
        (∀ y ∈ l1, P y → y.Below x) ∧ ∀ y ∈ l2, P y → ¬ x.Below y := by
  have hm : ∀ x, x ∈ xs.filter (fun x => decide (P x)) ↔ x ∈ xs ∧ P x := fun x => by simp [List.mem_filter]
  rcases hl : xs.filter (fun x => decide (P x)) with _ | ⟨a, l⟩
  · have none_meets : ∀ x ∈ xs, ¬ P x := fun x hx' m => by
      have := (hm x).2 ⟨hx', m⟩
      rw [hl] at this
      simp at this
    refine ⟨by simpa [chosen] using none_meets, fun s => ⟨(by rintro ⟨⟩), ?_⟩⟩
    rintro ⟨l1, x, l2, rfl, -, m, -⟩
    exact absurd m (none_meets x (by simp))
  · have hn : ∀ x ∈ a :: l, x.numbers ≠ [] := fun x hx' => hx x ((hm x).1 (hl ▸ hx')).1
    refine ⟨⟨(by rintro ⟨⟩), fun hno => ?_⟩, fun s => ?_⟩
    · have := (hm a).1 (hl ▸ List.mem_cons_self)
      exact absurd this.2 (hno a this.1)
    · constructor
      · intro e
        obtain ⟨k1, k2, e1, -, -⟩ := (C116_max (ver a) (l.map ver) _).1 rfl
        have : pyMax (ver a) (l.map ver) ∈ (a :: l).map ver := by rw [List.map_cons, e1]; simp
        obtain ⟨m, -, em⟩ := List.mem_map.1 this
        obtain ⟨l1, l2, e2, h3, h4⟩ := (max_iff a l hn m).1 em.symm
        rw [e2, List.filter_eq_append_iff] at hl
        obtain ⟨x1, x', rfl, f1, f'⟩ := hl
        rw [List.filter_eq_cons_iff] at f'
        obtain ⟨y1, y2, rfl, n1, mm, f2⟩ := f'
        refine ⟨x1 ++ y1, m, y2, by simp, ?_, by simpa using mm, ?_, ?_⟩
        · have := Option.some.inj e
          rw [← em, ver_short] at this
          exact this
        · intro y hy my
          rcases List.mem_append.1 hy with hy | hy
          · exact h3 y (by rw [← f1]; simp [hy, my])
          · exact absurd my (by simpa using n1 y hy)
        · intro y hy my
          exact h4 y (by rw [← f2]; simp [hy, my])
      · rintro ⟨l1, x, l2, rfl, rfl, mx, g1, g2⟩
        have e : pyMax (ver a) (l.map ver) = ver x := by
          rw [max_iff a l hn]
          refine ⟨l1.filter (fun x => decide (P x)), l2.filter (fun x => decide (P x)), ?_, ?_, ?_⟩
          · rw [← hl, List.filter_append, List.filter_cons_of_pos (by simpa using mx)]
          · intro y hy
            simp only [List.mem_filter, decide_eq_true_eq] at hy
            exact g1 y hy.1 hy.2
          · intro y hy
            simp only [List.mem_filter, decide_eq_true_eq] at hy
            exact g2 y hy.1 hy.2
        simp only [chosen, List.map_cons, e, ver_short]

end PickText

open PickText

/-- C127. From a requirement and a list of public versions, the program prints nothing exactly if none of them satisfies the
requirement, and else the greatest one that does, the first of these in the list as it was written there. -/
theorem C127_pick (f : List (List Ask)) (hf : f ≠ []) (h : ∀ l ∈ f, l ≠ [] ∧ ∀ q ∈ l, q.WellFormed) (t : PyStr)
    (ht : t.filter (fun c => !isSpace c) = askAny f) (xs : List Pub) (hx : ∀ x ∈ xs, x.numbers ≠ []) :
    ∃ r, pickText t (xs.map Pub.text) = .ok r ∧ (r = none ↔ ∀ x ∈ xs, ¬ x.Meets f) ∧
      ∀ s, r = some s ↔ ∃ l1 x l2, xs = l1 ++ x :: l2 ∧ x.text = s ∧ x.Meets f ∧
        (∀ y ∈ l1, y.Meets f → y.Below x) ∧ ∀ y ∈ l2, y.Meets f → ¬ x.Below y := by
  obtain ⟨s, h1, h2⟩ := FromPublic.any_parse f hf h
  have hp : Specifier.parse t = .ok s := (FromText.spaced ht).trans h1
  have ha := accepted s (C52_valid _ _ h1) f h2 xs hx
  refine ⟨_, ?_, chosen_iff (Pub.Meets f) xs hx⟩
  simp only [pickText, hp, texts_parse xs hx]
  show (acceptedOf s (xs.map ver) >>= _) = _
  rw [ha]
  cases (xs.filter fun x => decide (x.Meets f)).map ver <;> rfl

/-- The later of two equal versions is not chosen, and `2.0rc1` is not after 2. -/
example : pickText ">=1".toList ["1.5".toList, "2".toList, "2.0rc1".toList, "2.0".toList, "0.9".toList] = .ok (some "2".toList) := by
  decide +kernel
example : pickText "<1".toList ["1.5".toList, "1".toList] = .ok none := by decide +kernel

/-- C127. Public versions are sorted by the order of PEP 440, equal ones staying in the order in which they were given, and printed
as they were written. -/
theorem C127_sorted (xs : List Pub) (hx : ∀ x ∈ xs, x.numbers ≠ []) :
    ∃ ys : List Pub, sortTexts (xs.map Pub.text) = .ok (ys.map Pub.text) ∧ ys.Perm xs ∧ ys.Pairwise (fun a b => ¬ b.Below a) ∧
      ∀ z, z.numbers ≠ [] → ys.filter (fun y => decide (y.Same z)) = xs.filter (fun y => decide (y.Same z)) := by
  have hperm : (xs.insertionSort fun a b => ¬ b.Below a).Perm xs := List.perm_insertionSort _ xs
  have hy : ∀ y ∈ xs.insertionSort (fun a b => ¬ b.Below a), y.numbers ≠ [] := fun y h => hx y (hperm.mem_iff.1 h)
  have e : (xs.insertionSort fun a b => ¬ b.Below a).map ver = pySorted (xs.map ver) := by
    unfold pySorted
    refine List.map_insertionSort _ _ _ _ fun a ha b hb => ?_
    rw [← ver_lt (hx b hb) (hx a ha)]
    simp
  have hs := pySorted_spec (xs.map ver)
  rw [← e] at hs
  refine ⟨xs.insertionSort fun a b => ¬ b.Below a, ?_, hperm, ?_, fun z hz => ?_⟩
  · simp only [sortTexts, texts_parse xs hx]
    show Except.ok _ = _
    rw [← e, List.map_map]
    congr 1
    exact List.map_congr_left fun y _ => ver_short y
  · have := hs.sorted
    rw [List.pairwise_map] at this
    exact this.imp_of_mem fun ha hb h => by rwa [ver_lt (hy _ hb) (hy _ ha)] at h
  · have h := hs.stable (ver z)
    have key : ∀ l : List Pub, (∀ y ∈ l, y.numbers ≠ []) →
        (l.map ver).filter (fun w => PyCmp.eq w (ver z)) = (l.filter fun y => decide (y.Same z)).map ver := fun l hl => by
      rw [List.filter_map]
      congr 1
      refine List.filter_congr fun y hy => ?_
      have := ver_eq (hl y hy) hz
      simp only [Function.comp]
      by_cases hb : y.Same z
      · simp [hb, this.2 hb]
      · have : PyCmp.eq (ver y) (ver z) = false := by
          rw [Bool.eq_false_iff]; exact fun h => hb (this.1 h)
        simp [hb, this]
    rw [key _ hy, key _ hx] at h
    exact List.map_injective_iff.2 ver_injective h

example : sortTexts ["1.10".toList, "1.9.0".toList, "1.9".toList, "1.9rc1".toList, "1!0".toList] =
    .ok ["1.9rc1".toList, "1.9.0".toList, "1.9".toList, "1.10".toList, "1!0".toList] := by decide +kernel

end Verif
