import Verif.Props.FromPublic
import Verif.Props.Indices
/-!
# C125: from text to text, for the methods that change versions

Public versions of PEP 440 are read, changed by any number of calls, and written. What is written is stated on the plain record of
`Props/FromPublic.lean`, without the model.
-/

namespace Verif
open scoped Verif
open FromText

/-! ## What the methods do, on records -/

/-- `n` numbers, given by their places. -/
def numbersUpTo (n : Nat) (f : Nat → Nat) : List Nat := (List.range n).map f

namespace Pub

/-- The final release with the number at place `i` increased by one and zeros behind; of an unstable version only the tags are
dropped. -/
def bump (i : Nat) (p : Pub) : Pub :=
  if p.pre = none ∧ p.dev = none then
    { epoch := p.epoch, numbers := numbersUpTo (max p.numbers.length (i + 1)) fun j =>
        if j < i then numAt p.numbers j else if j = i then numAt p.numbers i + 1 else 0 }
  else { epoch := p.epoch, numbers := p.numbers }

def nextPhase : PrePhase → Option PrePhase
  | .a => some .b
  | .b => some .rc
  | .rc => none

end Pub

/-- Calls of methods that change a version. -/
inductive Edit
  /-- `next_at`, with `next_major`, `next_minor`, `next_micro` and `next_patch` -/
  | at_ (i : Nat) | major | minor | micro | patch
  /-- `next_pre`, `next_post`, `next_dev`, `next_epoch`, `next_breaking` -/
  | pre | post | dev | epoch | breaking
  /-- `next_pre_phase() or self` -/
  | prePhase
  /-- `to_stable`, `to_semantic`, `normalize` -/
  | stable | semantic | normalize
  /-- `set_at`, `set_epoch_value`, `pad_to`; `slice` at a place other than 0 -/
  | set (i x : Nat) | setEpoch (n : Nat) | pad (n : Nat) | slice (n : Nat)
  /-- `without_pre`, `without_post`, `without_dev`, `without_tags` -/
  | dropPre | dropPost | dropDev | dropTags
  deriving Repr

/-- The record after the call. -/
def Edit.on (p : Pub) : Edit → Pub
  | at_ i => p.bump i
  | major => p.bump 0
  | minor => p.bump 1
  | micro | patch => p.bump 2
  | pre => { epoch := p.epoch, numbers := p.numbers, pre := match p.pre with | none => some (.a, 0) | some (f, n) => some (f, n + 1) }
  | post => { p with post := match p.post with | none => some 0 | some n => some (n + 1)
                     dev := none }
  | dev => { p with dev := match p.dev with | none => some 0 | some n => some (n + 1) }
  | epoch => { p with epoch := p.epoch + 1 }
  | breaking =>
    if numAt p.numbers 0 ≠ 0 then Pub.bump 0 { epoch := p.epoch, numbers := p.numbers }
    else if numAt p.numbers 1 ≠ 0 then p.bump 1
    else p.bump (min 2 (p.numbers.length - 1))
  | prePhase =>
    match p.pre with
    | none => { epoch := p.epoch, numbers := p.numbers, pre := some (.a, 0) }
    | some (f, _) =>
      match Pub.nextPhase f with
      | none => p
      | some g => { epoch := p.epoch, numbers := p.numbers, pre := some (g, 0) }
  | stable => if p.pre = none ∧ p.dev = none then p else { epoch := p.epoch, numbers := p.numbers }
  | semantic => { p with numbers := [numAt p.numbers 0, numAt p.numbers 1, numAt p.numbers 2 + if 3 < p.numbers.length then 1 else 0] }
  | normalize => p
  | set i x => { p with numbers := numbersUpTo (max p.numbers.length (i + 1)) fun j => if j = i then x else numAt p.numbers j }
  | setEpoch n => { p with epoch := n }
  | pad n => { p with numbers := numbersUpTo (max p.numbers.length n) (numAt p.numbers) }
  | slice n => { p with numbers := p.numbers.take (n + 1) }
  | dropPre => { p with pre := none }
  | dropPost => { p with post := none }
  | dropDev => { p with dev := none }
  | dropTags => { epoch := p.epoch, numbers := p.numbers }

/-- The call, in the model. -/
def Edit.run (v : Version) : Edit → Except PyErr Version
  | at_ i => v.nextAt i
  | major => v.nextMajor
  | minor => v.nextMinor
  | micro => v.nextMicro
  | patch => v.nextPatch
  | pre => v.nextPre
  | post => v.nextPost
  | dev => v.nextDev
  | epoch => .ok v.nextEpoch
  | breaking => v.nextBreaking
  | prePhase => do .ok ((← v.nextPrePhase).getD v)
  | stable => .ok v.toStable
  | semantic => v.toSemantic
  | normalize => v.normalize
  | set i x => v.setAt i x
  | setEpoch n => .ok (v.setEpochValue n)
  | pad n => v.padTo n
  | slice n => v.slice (n + 1 : Nat)
  | dropPre => .ok v.withoutPre
  | dropPost => .ok v.withoutPost
  | dropDev => .ok v.withoutDev
  | dropTags => .ok v.withoutTags

/-- The calls one after the other. -/
def Edit.runAll (v : Version) : List Edit → Except PyErr Version
  | [] => .ok v
  | e :: l => do runAll (← e.run v) l

namespace PublicEdits
open FromPublic

theorem upTo_at (n : Nat) (f : Nat → Nat) (j : Nat) : numAt (numbersUpTo n f) j = if j < n then f j else 0 := by
  simp only [numAt, numbersUpTo, List.getD_eq_getElem?_getD, List.getElem?_map]
  by_cases h : j < n
  · simp [h]
  · simp [h]

theorem release_eq {r : Release} {l : List Nat} (h1 : r.precision = l.length) (h2 : ∀ j, r.part j = (numAt l j : Int)) :
    r = ⟨l.map Int.ofNat⟩ := by
  obtain ⟨r⟩ := r
  congr 1
  refine List.ext_getElem (by simpa [Release.precision] using h1) fun j hj hj' => ?_
  have := h2 j
  simp only [Release.part, numAt, List.getD_eq_getElem?_getD, List.getElem?_eq_getElem hj] at this
  rw [List.getElem?_eq_getElem (by simpa using hj')] at this
  simpa using this

theorem stable_pub (p : Pub) : (FromPublic.ver p).isStable = true ↔ p.pre = none ∧ p.dev = none := by
  rw [stable_iff]; exact FromPublic.ver_stable p

theorem final_eq {w : Version} {p : Pub} (hf : w.IsFinal) (he : w.epoch = ⟨p.epoch⟩) (hr : w.release = ⟨p.numbers.map Int.ofNat⟩)
    (h1 : p.pre = none) (h2 : p.post = none) (h3 : p.dev = none) : w = FromPublic.ver p := by
  obtain ⟨e, r, a, b, c, d⟩ := w
  obtain ⟨f1, f2, f3, f4⟩ := hf
  simp only at f1 f2 f3 f4 he hr
  subst f1 f2 f3 f4 he hr
  simp [FromPublic.ver, h1, h2, h3]

theorem bump_ok (p : Pub) (hp : p.numbers ≠ []) (i : Nat) : (FromPublic.ver p).nextAt i = .ok (FromPublic.ver (p.bump i)) := by
  obtain ⟨w, h1, h2, h3, h4, h5, h6⟩ := nextAt_spec (FromPublic.ver p) (FromPublic.ver_valid hp) i
  rw [h1]
  congr 1
  unfold Pub.bump
  split
  · rename_i hs
    obtain ⟨h7, h8⟩ := h5 ((stable_pub p).2 hs)
    refine final_eq h2 h3 (release_eq ?_ fun j => ?_) rfl rfl rfl
    · rw [h7]; simp [numbersUpTo, Version.precision, FromPublic.ver_precision]
    · rw [h8, upTo_at]
      simp only [FromPublic.ver_part]
      by_cases a1 : j < i
      · rw [if_pos a1, if_pos a1, if_pos (by omega)]
      · by_cases a2 : j = i
        · rw [if_neg a1, if_pos a2, if_neg a1, if_pos a2, if_pos (by omega)]; rfl
        · rw [if_neg a1, if_neg a2, if_neg a1, if_neg a2]; simp
  · rename_i hs
    refine final_eq h2 h3 ((h6 ?_).trans rfl) rfl rfl rfl
    rw [← Bool.not_eq_true, stable_pub]; exact hs

theorem pub_tag {f : PrePhase} {n : Nat} : (⟨phase f, n⟩ : Tag).Valid .pre := by cases f <;> exact ⟨_, by decide, rfl⟩

theorem ver_release (p : Pub) (l : List Nat) : (FromPublic.ver p).setRelease ⟨l.map Int.ofNat⟩ = FromPublic.ver { p with numbers := l } := rfl

theorem same_release {w : Version} {p : Pub} {l : List Nat} (h : w = { FromPublic.ver p with release := w.release }) (h1 : w.precision = l.length)
    (h2 : ∀ j, w.release.part j = (numAt l j : Int)) : w = FromPublic.ver { p with numbers := l } := by
  rw [h, release_eq h1 h2]; rfl

theorem edit_ok (p : Pub) (hp : p.numbers ≠ []) (e : Edit) : e.run (FromPublic.ver p) = .ok (FromPublic.ver (e.on p)) ∧ (e.on p).numbers ≠ [] := by
  have hv := FromPublic.ver_valid hp
  have hlen : 0 < p.numbers.length := List.length_pos_iff.2 hp
  have hb : ∀ (q : Pub) (i : Nat), q.numbers ≠ [] → (q.bump i).numbers ≠ [] := fun q i hq => by
    unfold Pub.bump
    split
    · simp [numbersUpTo]
    · exact hq
  obtain ⟨m1, m2, m3, m4⟩ := C10_named (FromPublic.ver p)
  cases e with
  | at_ i => exact ⟨bump_ok p hp i, hb p i hp⟩
  | major => exact ⟨m1.trans (bump_ok p hp 0), hb p 0 hp⟩
  | minor => exact ⟨m2.trans (bump_ok p hp 1), hb p 1 hp⟩
  | micro => exact ⟨m3.trans (bump_ok p hp 2), hb p 2 hp⟩
  | patch => exact ⟨m4.trans (bump_ok p hp 2), hb p 2 hp⟩
  | pre =>
    refine ⟨?_, hp⟩
    obtain ⟨ep, l, pr, po, de⟩ := p
    rcases pr with _ | ⟨f, n⟩
    · obtain ⟨w, h1, -, h3, -⟩ := C11_next_pre_absent (FromPublic.ver ⟨ep, l, none, po, de⟩) rfl
      exact h1.trans (congrArg _ h3)
    · obtain ⟨w, h1, -, h3⟩ := C11_next_pre (FromPublic.ver ⟨ep, l, some (f, n), po, de⟩) hv _ rfl
      exact h1.trans (congrArg _ h3)
  | post =>
    refine ⟨?_, hp⟩
    obtain ⟨w, q, h1, -, h2, h3, h4⟩ := C11_next_post (FromPublic.ver p) hv
    obtain ⟨ep, l, pr, po, de⟩ := p
    refine h1.trans (congrArg _ ?_)
    rcases po with _ | n
    · rw [h2, h3 rfl]; rfl
    · rw [h2, h4 _ rfl]; rfl
  | dev =>
    refine ⟨?_, hp⟩
    obtain ⟨w, h1, a1, a2, a3, a4, a5, a6, a7⟩ := C11_next_dev (FromPublic.ver p) hv
    obtain ⟨ep, l, pr, po, de⟩ := p
    refine h1.trans (congrArg _ ?_)
    obtain ⟨w1, w2, w3, w4, w5, w6⟩ := w
    simp only at a1 a2 a3 a4 a5 a6 a7
    subst a1 a2 a3 a4 a5
    rcases de with _ | n
    · rw [(a6 rfl).1]; rfl
    · rw [(a7 _ rfl).1]; rfl
  | epoch => exact ⟨rfl, hp⟩
  | breaking =>
    have g0 : (FromPublic.ver p).major = .ok (numAt p.numbers 0 : Int) := by
      have := C06_get_at (FromPublic.ver p) 0 0
      rw [FromPublic.ver_part, if_pos (by simpa [Version.precision, FromPublic.ver_precision] using hlen)] at this
      exact this
    have g1 : (FromPublic.ver p).minor = .ok (numAt p.numbers 1 : Int) := by
      have := C06_get_at (FromPublic.ver p) 1 0
      rw [FromPublic.ver_part] at this
      refine Eq.trans this (congrArg _ ?_)
      split
      · rfl
      · rename_i h
        rw [Version.precision, FromPublic.ver_precision] at h
        rw [numAt, List.getD_eq_getElem?_getD, List.getElem?_eq_none (by omega)]; rfl
    have has : ∀ i : Nat, (FromPublic.ver p).hasAt i = decide (i < p.numbers.length) := fun i => by
      simp [Version.hasAt, Release.hasAt, FromPublic.ver_precision]
    have st : ∀ q : Pub, q.numbers ≠ [] → (FromPublic.ver q).nextMajor = .ok (FromPublic.ver (q.bump 0)) := fun q hq =>
      (C10_named (FromPublic.ver q)).1.trans (bump_ok q hq 0)
    have run : Edit.breaking.run (FromPublic.ver p) =
        if (numAt p.numbers 0 : Int) = 0 then
          if (numAt p.numbers 1 : Int) ≠ 0 then (FromPublic.ver p).nextMinor
          else if decide (2 < p.numbers.length) = true then (FromPublic.ver p).nextMicro
          else if decide (1 < p.numbers.length) = true then (FromPublic.ver p).nextMinor
          else (FromPublic.ver p).nextMajor
        else (FromPublic.ver p).toStable.nextMajor := by
      rw [← has 2, ← has 1]
      simp only [Edit.run, Version.nextBreaking, g0, g1, bind, Except.bind]
      rfl
    have both : ∀ i, Edit.breaking.on p = p.bump i → Edit.breaking.run (FromPublic.ver p) = (FromPublic.ver p).nextAt i →
        Edit.breaking.run (FromPublic.ver p) = .ok (FromPublic.ver (Edit.breaking.on p)) ∧ (Edit.breaking.on p).numbers ≠ [] := fun i h1 h2 => by
      rw [h1, h2]; exact ⟨bump_ok p hp i, hb p i hp⟩
    by_cases a0 : numAt p.numbers 0 = 0
    · by_cases a1 : numAt p.numbers 1 = 0
      · by_cases c2 : 2 < p.numbers.length
        · refine both 2 ?_ ?_
          · simp only [Edit.on, a0, a1, ne_eq, not_true_eq_false, if_false]
            rw [show min 2 (p.numbers.length - 1) = 2 by omega]
          · rw [run, if_pos (by simp [a0]), if_neg (by simp [a1]), if_pos (by simpa using c2)]; exact m3
        · by_cases c1 : 1 < p.numbers.length
          · refine both 1 ?_ ?_
            · simp only [Edit.on, a0, a1, ne_eq, not_true_eq_false, if_false]
              rw [show min 2 (p.numbers.length - 1) = 1 by omega]
            · rw [run, if_pos (by simp [a0]), if_neg (by simp [a1]), if_neg (by simpa using c2), if_pos (by simpa using c1)]; exact m2
          · refine both 0 ?_ ?_
            · simp only [Edit.on, a0, a1, ne_eq, not_true_eq_false, if_false]
              rw [show min 2 (p.numbers.length - 1) = 0 by omega]
            · rw [run, if_pos (by simp [a0]), if_neg (by simp [a1]), if_neg (by simpa using c2), if_neg (by simpa using c1)]; exact m1
      · refine both 1 ?_ ?_
        · simp only [Edit.on, a0, a1, ne_eq, not_true_eq_false, not_false_eq_true, if_false, if_true]
        · rw [run, if_pos (by simp [a0]), if_pos (by exact_mod_cast a1)]; exact m2
    · have eon : Edit.breaking.on p = Pub.bump 0 { epoch := p.epoch, numbers := p.numbers } := by
        simp only [Edit.on, a0, ne_eq, not_false_eq_true, if_true]
      rw [eon, run, if_neg (by exact_mod_cast a0)]
      refine ⟨?_, hb _ 0 hp⟩
      by_cases hs : p.pre = none ∧ p.dev = none
      · have e := (C12_to_stable (FromPublic.ver p)).2.2.2.2.1 ((FromPublic.ver_stable p).2 hs)
        rw [e, st p hp]
        simp [Pub.bump, hs]
      · have hs' := mt (FromPublic.ver_stable p).1 hs
        have e : (FromPublic.ver p).toStable = FromPublic.ver { epoch := p.epoch, numbers := p.numbers } :=
          ((C12_to_stable (FromPublic.ver p)).2.2.2.2.2.1 (by tauto)).trans rfl
        rw [e]
        exact st { epoch := p.epoch, numbers := p.numbers } hp
  | prePhase =>
    obtain ⟨ep, l, pr, po, de⟩ := p
    rcases pr with _ | ⟨f, n⟩
    · obtain ⟨w, -, h2, h3, -⟩ := C11_next_pre_absent (FromPublic.ver ⟨ep, l, none, po, de⟩) rfl
      refine ⟨?_, hp⟩
      simp only [Edit.run, h2, bind, Except.bind]
      exact congrArg _ h3
    · obtain ⟨h1, h2, h3, -⟩ := C11_next_pre_phase (FromPublic.ver ⟨ep, l, some (f, n), po, de⟩) _ rfl pub_tag
      cases f with
      | a => refine ⟨?_, hp⟩; simp only [Edit.run, h1 rfl, bind, Except.bind]; rfl
      | b => refine ⟨?_, hp⟩; simp only [Edit.run, h2 rfl, bind, Except.bind]; rfl
      | rc =>
        refine ⟨?_, hp⟩
        simp only [Edit.run, h3 (by simp [phase]) (by simp [phase]), bind, Except.bind]; rfl
  | stable =>
    have h := C12_to_stable (FromPublic.ver p)
    simp only [Edit.run, Edit.on]
    split
    · rename_i hs
      exact ⟨congrArg _ (h.2.2.2.2.1 ((FromPublic.ver_stable p).2 hs)), hp⟩
    · rename_i hs
      refine ⟨congrArg _ ((h.2.2.2.2.2.1 ?_).trans rfl), hp⟩
      have := mt (FromPublic.ver_stable p).1 hs
      tauto
  | semantic =>
    refine ⟨?_, by simp [Edit.on]⟩
    suffices h : (FromPublic.ver p).release.toSemantic = .ok ⟨(Edit.semantic.on p).numbers.map Int.ofNat⟩ by
      simp only [Edit.run, Version.toSemantic, h, bind, Except.bind]; rfl
    have has : (FromPublic.ver p).release.hasAt 3 = decide (3 < p.numbers.length) := by
      simp [Release.hasAt, FromPublic.ver_precision]
      omega
    have out : ∀ i, p.numbers.length ≤ i → numAt p.numbers i = 0 := fun i hi => by
      rw [numAt, List.getD_eq_getElem?_getD, List.getElem?_eq_none hi]; rfl
    unfold Release.toSemantic
    by_cases h3 : 3 < p.numbers.length
    · rw [if_pos (by rw [has]; exact decide_eq_true h3)]
      obtain ⟨q, h1, h2, h4⟩ := nextAt_nat (FromPublic.ver p).release hv.release 2
      have h1' : (FromPublic.ver p).release.nextPatch = .ok q := h1
      have hq := C64_slice { release := q } ⟨by
        rw [← precision_pos_iff, h2]; omega, by simp, by simp, by simp, by simp⟩ 3
      rw [if_neg (by omega)] at hq
      obtain ⟨w, w1, w2, w3, w4⟩ := hq
      have w1' : q.slice 3 = .ok w.release := by
        simp only [Version.slice, bind, Except.bind] at w1
        cases hc : q.slice 3 with
        | error e => exact absurd (w1.symm.trans (by rw [show ((3 : Nat) : Int) = 3 from rfl, hc])) (by simp)
        | ok r =>
          rw [show ((3 : Nat) : Int) = 3 from rfl, hc] at w1
          cases w1
          rfl
      simp only [h1', bind, Except.bind, w1']
      congr 1
      refine release_eq ?_ fun j => ?_
      · rw [show w.release.precision = w.precision from rfl, w2]
        simp only [Version.precision, h2, FromPublic.ver_precision, Edit.on, List.length_cons, List.length_nil]
        omega
      · rw [w3]
        simp only [h4, FromPublic.ver_part, Edit.on, if_pos h3]
        rcases j with _ | _ | _ | j <;> simp [numAt]
    · rw [if_neg (by rw [has]; simpa using h3)]
      by_cases h2 : p.numbers.length = 3
      · rw [if_pos (by simp [Release.isSemantic, FromPublic.ver_precision, h2])]
        congr 1
        refine release_eq (by simp [FromPublic.ver_precision, h2, Edit.on]) fun j => ?_
        rw [FromPublic.ver_part]
        simp only [Edit.on, if_neg h3]
        rcases j with _ | _ | _ | j <;> simp [numAt, h2]
      · rw [if_neg (by simpa [Release.isSemantic, FromPublic.ver_precision] using h2)]
        obtain ⟨q, q1, q2, q3⟩ := padTo_ok (FromPublic.ver p).release hv.release 3
        rw [q1]
        congr 1
        rw [FromPublic.ver_precision] at q2
        refine release_eq (by simp only [Edit.on, List.length_cons, List.length_nil]; omega) fun j => ?_
        rw [q3, FromPublic.ver_part]
        simp only [Edit.on, if_neg h3]
        rcases j with _ | _ | _ | j
        · simp [numAt]
        · simp [numAt]
        · simp [numAt]
        · rw [out _ (by omega)]; simp [numAt]
  | normalize =>
    refine ⟨C14_unchanged _ hv (fun t ht => ?_) fun t ht => ?_, hp⟩
    · obtain ⟨⟨f, n⟩, -, rfl⟩ := Option.map_eq_some_iff.1 ht
      cases f <;> simp [phase]
    · obtain ⟨n, -, rfl⟩ := Option.map_eq_some_iff.1 ht
      rfl
  | set i x =>
    obtain ⟨w, h1, h2, h3, h4⟩ := C06_set_at (FromPublic.ver p) hv i x
    refine ⟨h1.trans (congrArg _ (same_release h4 ?_ fun j => ?_)), by simp [Edit.on, numbersUpTo]⟩
    · rw [h3]; simp [numbersUpTo, Version.precision, FromPublic.ver_precision]
    · rw [h2, upTo_at, FromPublic.ver_part]
      by_cases a : j = i
      · rw [if_pos a, if_pos a, if_pos (by omega)]
      · rw [if_neg a, if_neg a]
        split
        · rfl
        · rw [numAt, List.getD_eq_getElem?_getD, List.getElem?_eq_none (by omega)]; rfl
  | setEpoch n => exact ⟨rfl, hp⟩
  | pad n =>
    obtain ⟨q, h1, h2, h3⟩ := padTo_ok (FromPublic.ver p).release hv.release n
    have h2' : q.precision = max p.numbers.length n := by rw [FromPublic.ver_precision] at h2; omega
    have e : q = ⟨(numbersUpTo (max p.numbers.length n) (numAt p.numbers)).map Int.ofNat⟩ := release_eq (by rw [h2']; simp [numbersUpTo]) fun j => by
      rw [h3, upTo_at, FromPublic.ver_part]
      split
      · rfl
      · rw [numAt, List.getD_eq_getElem?_getD, List.getElem?_eq_none (by omega)]; rfl
    refine ⟨?_, ?_⟩
    · simp only [Edit.run, Version.padTo, h1, bind, Except.bind]
      rw [e]; rfl
    · intro h
      have := congrArg List.length h
      simp only [Edit.on, numbersUpTo, List.length_map, List.length_range, List.length_nil] at this
      omega
  | slice n =>
    have h := C64_slice (FromPublic.ver p) hv (n + 1)
    rw [if_neg (by omega)] at h
    obtain ⟨w, h1, h2, h3, h4⟩ := h
    refine ⟨h1.trans (congrArg _ (same_release h4 ?_ fun j => ?_)), fun h => ?_⟩
    · rw [h2, Version.precision, FromPublic.ver_precision, List.length_take]
    · rw [h3, FromPublic.ver_part]
      simp only [numAt, List.getD_eq_getElem?_getD, List.getElem?_take]
      split <;> rfl
    · have := congrArg List.length h
      simp only [Edit.on, List.length_take, List.length_nil] at this
      omega
  | dropPre => exact ⟨rfl, hp⟩
  | dropPost => exact ⟨rfl, hp⟩
  | dropDev => exact ⟨rfl, hp⟩
  | dropTags => exact ⟨rfl, hp⟩

theorem program_ok (l : List Edit) : ∀ p : Pub, p.numbers ≠ [] →
    Edit.runAll (FromPublic.ver p) l = .ok (FromPublic.ver (l.foldl Edit.on p)) ∧ (l.foldl Edit.on p).numbers ≠ [] := by
  induction l with
  | nil => exact fun p hp => ⟨rfl, hp⟩
  | cons e l ih =>
    intro p hp
    obtain ⟨h1, h2⟩ := edit_ok p hp e
    obtain ⟨h3, h4⟩ := ih (e.on p) h2
    refine ⟨?_, h4⟩
    simp only [Edit.runAll, h1, bind, Except.bind]
    exact h3

end PublicEdits

/-- C125. A public version is read, any of the methods is called, and what is written is the changed record; reading that gives
the changed version again. -/
theorem C125_edit (p : Pub) (hp : p.numbers ≠ []) (e : Edit) :
    ∃ v w, Version.parse p.text = .ok v ∧ e.run v = .ok w ∧ w.toShortStr = (e.on p).text ∧ w.toPep440Str = .ok (e.on p).text ∧
      Version.parse (e.on p).text = .ok w := by
  obtain ⟨h1, h2⟩ := PublicEdits.edit_ok p hp e
  obtain ⟨v, -, v1, -, -, -, v2, v3⟩ := C123_order (e.on p) (e.on p) h2 h2
  have e1 := FromPublic.pub_parse h2
  rw [e1] at v1
  cases v1
  exact ⟨_, _, FromPublic.pub_parse hp, h1, v2, v3, e1⟩

/-- The names of the results of some calls. -/
example : (Edit.minor.on { numbers := [1, 2, 3] }).text = "1.3.0".toList ∧ (Edit.minor.on { numbers := [1, 2, 3], pre := some (.rc, 1) }).text = "1.2.3".toList ∧
    (Edit.pre.on { epoch := 2, numbers := [1, 0], pre := some (.b, 9), dev := some 4 }).text = "2!1.0b10".toList ∧
    (Edit.breaking.on { numbers := [0, 0] }).text = "0.1".toList ∧ (Edit.semantic.on { numbers := [1, 2, 3, 4], post := some 1 }).text = "1.2.4.post1".toList ∧
    (Edit.prePhase.on { numbers := [1], pre := some (.a, 7) }).text = "1b0".toList := by decide +kernel
example : Version.parse "1.2.3rc1".toList = .ok (FromPublic.ver { numbers := [1, 2, 3], pre := some (.rc, 1) }) ∧
    Edit.minor.run (FromPublic.ver { numbers := [1, 2, 3], pre := some (.rc, 1) }) = .ok (exVersion [1, 2, 3]) := by decide +kernel

/-- C125. `next_pre_phase` gives nothing exactly after `rc`. -/
theorem C125_last_phase (p : Pub) (hp : p.numbers ≠ []) :
    ∃ v r, Version.parse p.text = .ok v ∧ v.nextPrePhase = .ok r ∧ (r = none ↔ ∃ n, p.pre = some (.rc, n)) := by
  have hv := FromPublic.pub_parse hp
  obtain ⟨ep, l, pr, po, de⟩ := p
  rcases pr with _ | ⟨f, n⟩
  · obtain ⟨w, -, h2, -⟩ := C11_next_pre_absent (FromPublic.ver ⟨ep, l, none, po, de⟩) rfl
    exact ⟨_, _, hv, h2, by simp⟩
  · obtain ⟨h1, h2, h3, -⟩ := C11_next_pre_phase (FromPublic.ver ⟨ep, l, some (f, n), po, de⟩) _ rfl PublicEdits.pub_tag
    cases f with
    | a => exact ⟨_, _, hv, h1 rfl, by simp⟩
    | b => exact ⟨_, _, hv, h2 rfl, by simp⟩
    | rc => exact ⟨_, _, hv, h3 (by simp [FromPublic.phase]) (by simp [FromPublic.phase]), by simp⟩

example : (Version.parse "1rc3".toList).bind (·.nextPrePhase) = .ok none ∧
    (Version.parse "1b3".toList).bind (·.nextPrePhase) = .ok (some (exVersion [1] (some ⟨"rc".toList, 0⟩))) := by decide +kernel

/-- C125. The same for any number of calls one after the other. -/
theorem C125_program (p : Pub) (hp : p.numbers ≠ []) (l : List Edit) :
    ∃ v w, Version.parse p.text = .ok v ∧ Edit.runAll v l = .ok w ∧ w.toShortStr = (l.foldl Edit.on p).text ∧
      w.toPep440Str = .ok (l.foldl Edit.on p).text ∧ Version.parse (l.foldl Edit.on p).text = .ok w := by
  obtain ⟨h1, h2⟩ := PublicEdits.program_ok l p hp
  obtain ⟨v, -, v1, -, -, -, v2, v3⟩ := C123_order _ _ h2 h2
  have e1 := FromPublic.pub_parse h2
  rw [e1] at v1
  cases v1
  exact ⟨_, _, FromPublic.pub_parse hp, h1, v2, v3, e1⟩

/-- A release: bump, go through the pre-releases, and release. -/
example : ([Edit.minor, .pre, .pre, .prePhase, .prePhase].foldl Edit.on { numbers := [1, 9, 3] }).text = "1.10.0rc0".toList ∧
    ([Edit.minor, .pre, .pre, .prePhase, .prePhase, .stable, .post].foldl Edit.on { numbers := [1, 9, 3] }).text = "1.10.0.post0".toList := by
  decide +kernel

end Verif
