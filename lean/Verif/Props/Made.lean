import Verif.Props.Parsing
import Verif.Props.Versions
import Verif.Props.Records
import Verif.Props.Indices
import Verif.Proofs.Operators
import Verif.Model.Accessors
/-!
# Versions made by programs (C112)

A program makes versions by parsing, by constructing them from segments, and by calling methods of versions it has. `Call` is
a call of a method that returns a version; `Call.Plain` says that the numbers in its arguments are not negative, that tags and
segments are ones that constructors return, and that local parts are numbers or ASCII letters and digits.
-/

namespace Verif

/-- Calls of the methods of `Version` that return a version, /repo/versions/version.py 296-892. `with_*` are `set_*` of a segment. -/
inductive Call
  | setEpoch (e : Epoch) | setEpochValue (n : Int) | nextEpoch
  | setRelease (r : Release) | setReleaseParts (l : List Int) | slice (i : Int)
  | setMajor (n : Int) | setMinor (n : Int) | setMicro (n : Int) | setPatch (n : Int)
  | setAt (i n : Int) | setAtUnchecked (i n : Int)
  | nextMajor | nextMinor | nextMicro | nextPatch | nextAt (i : Int) | nextBreaking
  | padTo (n p : Int) | padToIndex (i p : Int) | padToNext (p : Int)
  | toSemantic | toStable | toStableUnchecked | normalize
  | nextPre | nextPrePhase | nextPost | nextDev
  | setPre (t : Option Tag) | setPost (t : Option Tag) | setDev (t : Option Tag) | setTags (p q d : Option Tag)
  | setLocal (l : Option Local) | setLocalParts (l : List LocalPart) | setDevAndLocal (d : Option Tag) (l : Option Local)
  | setTagsAndLocal (p q d : Option Tag) (l : Option Local)
  | withoutPre | withoutPost | withoutDev | withoutTags | withoutLocal | withoutDevAndLocal | withoutTagsAndLocal
  | weaken (other : Version)

/-- What the call returns; only `next_pre_phase` returns `None`. -/
def Call.run : Call → Version → Except PyErr (Option Version)
  | setEpoch e, v => .ok (some (v.setEpoch e))
  | setEpochValue n, v => .ok (some (v.setEpochValue n))
  | nextEpoch, v => .ok (some v.nextEpoch)
  | setRelease r, v => .ok (some (v.setRelease r))
  | setReleaseParts l, v => (v.setReleaseParts l).map some
  | slice i, v => (v.slice i).map some
  | setMajor n, v => (v.setMajor n).map some
  | setMinor n, v => (v.setMinor n).map some
  | setMicro n, v => (v.setMicro n).map some
  | setPatch n, v => (v.setPatch n).map some
  | setAt i n, v => (v.setAt i n).map some
  | setAtUnchecked i n, v => (v.setAtUnchecked i n).map some
  | nextMajor, v => v.nextMajor.map some
  | nextMinor, v => v.nextMinor.map some
  | nextMicro, v => v.nextMicro.map some
  | nextPatch, v => v.nextPatch.map some
  | nextAt i, v => (v.nextAt i).map some
  | nextBreaking, v => v.nextBreaking.map some
  | padTo n p, v => (v.padTo n p).map some
  | padToIndex i p, v => (v.padToIndex i p).map some
  | padToNext p, v => (v.padToNext p).map some
  | toSemantic, v => v.toSemantic.map some
  | toStable, v => .ok (some v.toStable)
  | toStableUnchecked, v => .ok (some v.toStableUnchecked)
  | normalize, v => v.normalize.map some
  | nextPre, v => v.nextPre.map some
  | nextPrePhase, v => v.nextPrePhase
  | nextPost, v => v.nextPost.map some
  | nextDev, v => v.nextDev.map some
  | setPre t, v => .ok (some (v.setPre t))
  | setPost t, v => .ok (some (v.setPost t))
  | setDev t, v => .ok (some (v.setDev t))
  | setTags p q d, v => .ok (some (v.setTags p q d))
  | setLocal l, v => .ok (some (v.setLocal l))
  | setLocalParts l, v => (v.setLocalParts l).map some
  | setDevAndLocal d l, v => .ok (some (v.setDevAndLocal d l))
  | setTagsAndLocal p q d l, v => .ok (some (v.setTagsAndLocal p q d l))
  | withoutPre, v => .ok (some v.withoutPre)
  | withoutPost, v => .ok (some v.withoutPost)
  | withoutDev, v => .ok (some v.withoutDev)
  | withoutTags, v => .ok (some v.withoutTags)
  | withoutLocal, v => .ok (some v.withoutLocal)
  | withoutDevAndLocal, v => .ok (some v.withoutDevAndLocal)
  | withoutTagsAndLocal, v => .ok (some v.withoutTagsAndLocal)
  | weaken other, v => .ok (some (v.weaken other))

/-- A tag that the constructor of its class returns for a number that is not negative, or none. -/
def PlainTag (cls : TagClass) (t : Option Tag) : Prop := ∀ x, t = some x → (∃ phase, Tag.create cls phase x.value = .ok x) ∧ 0 ≤ x.value

/-- Local parts of numbers that are not negative, and of letters and digits that are not all digits. -/
def PlainParts (l : List LocalPart) : Prop := ∀ p ∈ l, p.Canonical

/-- A local segment that the constructor returns for such parts, or none. -/
def PlainLocal (l : Option Local) : Prop := ∀ x, l = some x → Local.create x.parts = .ok x ∧ PlainParts x.parts

/-- A release that the constructor returns for parts that are not negative. -/
def PlainRelease (r : Release) : Prop := Release.create r.parts = .ok r ∧ r.NonNeg

/-- The arguments are plain. Indices and lengths can be anything. `known` are the versions that a program has. -/
def Call.Plain (known : Version → Prop) : Call → Prop
  | setEpoch e => 0 ≤ e.value
  | setEpochValue n => 0 ≤ n
  | setRelease r => PlainRelease r
  | setReleaseParts l => ∀ x ∈ l, 0 ≤ x
  | setMajor n | setMinor n | setMicro n | setPatch n | setAt _ n | setAtUnchecked _ n => 0 ≤ n
  | padTo _ p | padToIndex _ p | padToNext p => 0 ≤ p
  | setPre t => PlainTag .pre t
  | setPost t => PlainTag .post t
  | setDev t => PlainTag .dev t
  | setTags p q d => PlainTag .pre p ∧ PlainTag .post q ∧ PlainTag .dev d
  | setLocal l => PlainLocal l
  | setLocalParts l => PlainParts l
  | setDevAndLocal d l => PlainTag .dev d ∧ PlainLocal l
  | setTagsAndLocal p q d l => PlainTag .pre p ∧ PlainTag .post q ∧ PlainTag .dev d ∧ PlainLocal l
  | weaken other => known other
  | _ => True

/-- Versions that programs can make. -/
inductive Made : Version → Prop
  | parse (s : PyStr) (v : Version) (h : Version.parse s = .ok v) : Made v
  | fromParts (parts : List Int) (e : Option Epoch) (p q d : Option Tag) (l : Option Local) (v : Version) (hr : ∀ x ∈ parts, 0 ≤ x)
      (he : ∀ x, e = some x → 0 ≤ x.value) (hp : PlainTag .pre p) (hq : PlainTag .post q) (hd : PlainTag .dev d) (hl : PlainLocal l)
      (h : Version.fromParts parts e p q d l = .ok v) : Made v
  | create (e : Option Epoch) (r : Option Release) (p q d : Option Tag) (l : Option Local) (hr : ∀ x, r = some x → PlainRelease x)
      (he : ∀ x, e = some x → 0 ≤ x.value) (hp : PlainTag .pre p) (hq : PlainTag .post q) (hd : PlainTag .dev d) (hl : PlainLocal l) :
      Made (Version.create e r p q d l)
  /-- All methods but `weaken`, whose argument is a version. -/
  | call (v : Version) (hv : Made v) (c : Call) (hc : c.Plain fun _ => False) (w : Version) (h : c.run v = .ok (some w)) : Made w
  | weaken (v u : Version) (hv : Made v) (hu : Made u) : Made (v.weaken u)

/-! ### releases -/

/-- Not empty and not negative. -/
def Release.Good (r : Release) : Prop := r.parts ≠ [] ∧ ∀ x ∈ r.parts, 0 ≤ x

section
variable {r s : Release} {l : List Int} {i n p : Int}

theorem create_good (hl : ∀ x ∈ l, 0 ≤ x) (h : Release.create l = .ok s) : s.Good := by
  unfold Release.create at h
  split at h
  · cases h
  · rename_i hne
    cases h
    exact ⟨by simpa using hne, hl⟩

theorem plainRelease_good (h : PlainRelease r) : r.Good := create_good h.2 h.1

theorem slice_good (hr : r.Good) (h : r.slice i = .ok s) : s.Good := by
  refine create_good (fun x hx => ?_) h
  unfold Release.sliceParts pySliceTo at hx
  split at hx <;> exact hr.2 x (List.mem_of_mem_take hx)

theorem padTo_good (hr : r.Good) (hp : 0 ≤ p) (h : r.padTo n p = .ok s) : s.Good := by
  unfold Release.padTo at h
  split at h
  · refine create_good (fun x hx => ?_) h
    rcases List.mem_append.1 (List.mem_of_mem_take hx) with h | h
    · exact hr.2 x h
    · rw [List.eq_of_mem_replicate h]; exact hp
  · cases h; exact hr

theorem setAtUnchecked_good (hr : r.Good) (hn : 0 ≤ n) (h : r.setAtUnchecked i n = .ok s) : s.Good := by
  unfold Release.setAtUnchecked pySet at h
  cases hk : pyIndex r.parts.length i with
  | none => simp [hk, bind, Except.bind] at h
  | some k =>
    simp only [hk, bind, Except.bind] at h
    refine create_good (fun x hx => ?_) h
    rcases List.mem_or_eq_of_mem_set hx with h | rfl
    · exact hr.2 x h
    · exact hn

theorem setAt_good (hr : r.Good) (hn : 0 ≤ n) (h : r.setAt i n = .ok s) : s.Good := by
  unfold Release.setAt at h
  cases hp : r.padToIndex i with
  | error e => simp [hp, bind, Except.bind] at h
  | ok q =>
    simp only [hp, bind, Except.bind] at h
    exact setAtUnchecked_good (padTo_good hr (le_refl 0) hp) hn h

theorem nextAt_good (hr : r.Good) (h : r.nextAt i = .ok s) : s.Good := by
  unfold Release.nextAt at h
  cases hg : r.getAt i 0 with
  | error e => simp [hg, bind, Except.bind] at h
  | ok x =>
    have hx : 0 ≤ x := by
      unfold Release.getAt at hg
      split at hg
      · unfold Release.getAtUnchecked pyGet at hg
        split at hg
        · cases hg
        · split at hg
          · cases hg
          · rename_i he; cases hg; exact hr.2 _ (List.mem_of_getElem? he)
      · cases hg; exact le_refl 0
    simp only [hg, bind, Except.bind] at h
    cases hs : r.setAt i (increment x) with
    | error e => simp [hs] at h
    | ok u =>
      simp only [hs] at h
      cases hc : u.slice (increment i) with
      | error e => simp [hc] at h
      | ok q =>
        simp only [hc] at h
        exact padTo_good (slice_good (setAt_good hr (by unfold increment; omega) hs) hc) (le_refl 0) h

theorem toSemantic_good (hr : r.Good) (h : r.toSemantic = .ok s) : s.Good := by
  unfold Release.toSemantic at h
  split at h
  · cases hn : r.nextPatch with
    | error e => simp [hn, bind, Except.bind] at h
    | ok q => simp only [hn, bind, Except.bind] at h; exact slice_good (nextAt_good hr hn) h
  · split at h
    · cases h; exact hr
    · exact padTo_good hr (le_refl 0) h

end

/-! ### versions -/

/-- A valid tag with a number that is not negative, or none. -/
def FineTag (cls : TagClass) (t : Option Tag) : Prop := ∀ x, t = some x → x.Valid cls ∧ 0 ≤ x.value

def FineLocal (l : Option Local) : Prop := ∀ x, l = some x → x.parts ≠ [] ∧ ∀ p ∈ x.parts, p.Canonical

theorem canonical_iff_good (v : Version) : v.Canonical ↔
    0 ≤ v.epoch.value ∧ v.release.Good ∧ FineTag .pre v.pre ∧ FineTag .post v.post ∧ FineTag .dev v.dev ∧ FineLocal v.local_ :=
  ⟨fun h => ⟨h.epoch, ⟨h.valid.release, h.release⟩, fun t ht => ⟨h.valid.pre t ht, h.pre t ht⟩, fun t ht => ⟨h.valid.post t ht, h.post t ht⟩,
      fun t ht => ⟨h.valid.dev t ht, h.dev t ht⟩, fun l hl => ⟨h.valid.local_ l hl, h.local_ l hl⟩⟩,
    fun ⟨h1, h2, h3, h4, h5, h6⟩ => ⟨⟨h2.1, fun t ht => (h3 t ht).1, fun t ht => (h4 t ht).1, fun t ht => (h5 t ht).1, fun l hl => (h6 l hl).1⟩, h1, h2.2,
      fun t ht => (h3 t ht).2, fun t ht => (h4 t ht).2, fun t ht => (h5 t ht).2, fun l hl => (h6 l hl).2⟩⟩

theorem PlainTag.fine {cls : TagClass} {t : Option Tag} (h : PlainTag cls t) : FineTag cls t := fun x hx => by
  obtain ⟨⟨phase, h1⟩, h2⟩ := h x hx
  exact ⟨(tag_create_ok_valid h1).1, h2⟩

theorem PlainLocal.fine {l : Option Local} (h : PlainLocal l) : FineLocal l := fun x hx => by
  obtain ⟨h1, h2⟩ := h x hx
  refine ⟨fun e => ?_, h2⟩
  rw [e] at h1
  cases h1

theorem fineTag_none (cls : TagClass) : FineTag cls none := by rintro x ⟨⟩

theorem fineLocal_none : FineLocal none := by rintro x ⟨⟩

theorem fineTag_create {cls : TagClass} {phase : PyStr} {n : Int} {t : Tag} (hn : 0 ≤ n) (h : Tag.create cls phase n = .ok t) : FineTag cls (some t) := by
  rintro x ⟨⟩
  obtain ⟨h1, h2, -⟩ := tag_create_ok_valid h
  exact ⟨h1, by rw [h2]; exact hn⟩

theorem fineTag_next {cls : TagClass} {t u : Tag} (ht : FineTag cls (some t)) (h : t.next cls = .ok u) : FineTag cls (some u) :=
  fineTag_create (by have := (ht t rfl).2; unfold increment; omega) h

theorem fineTag_nextPhase {cls : TagClass} {t : Tag} {u : Option Tag} (h : t.nextPhase cls = .ok u) : FineTag cls u := by
  unfold Tag.nextPhase at h
  split at h
  · cases h; exact fineTag_none cls
  · rename_i phase _
    cases hs : t.setPhase cls phase with
    | error e => simp [hs, bind, Except.bind] at h
    | ok q =>
      simp only [hs, bind, Except.bind] at h
      cases hv : q.setValue cls 0 with
      | error e => simp [hv] at h
      | ok z => simp only [hv] at h; cases h; exact fineTag_create (le_refl 0) hv

theorem canonical_setRelease {v : Version} {r : Release} (hv : v.Canonical) (hr : r.Good) : (v.setRelease r).Canonical := by
  rw [canonical_iff_good] at hv ⊢
  exact ⟨hv.1, hr, hv.2.2⟩

theorem canonical_final {v : Version} (hv : v.Canonical) : v.withoutTagsAndLocal.Canonical := by
  rw [canonical_iff_good] at hv ⊢
  exact ⟨hv.1, hv.2.1, fineTag_none _, fineTag_none _, fineTag_none _, fineLocal_none⟩

theorem canonical_good {v : Version} (hv : v.Canonical) : v.release.Good := ⟨hv.valid.release, hv.release⟩

/-- A method that sets the release to the result of a method of releases. -/
theorem canonical_release {v w : Version} {x : Except PyErr Release} (hv : v.Canonical) (hx : ∀ r, x = .ok r → r.Good)
    (h : (do .ok (v.setRelease (← x)) : Except PyErr Version).map some = .ok (some w)) : w.Canonical := by
  cases x with
  | error e => cases h
  | ok r => cases h; exact canonical_setRelease hv (hx r rfl)

/-- A method that bumps the release of a stable version, and removes everything else. -/
theorem canonical_bump {v w : Version} {x : Except PyErr Release} (hv : v.Canonical) (hx : ∀ r, x = .ok r → r.Good)
    (h : (do let r ← if v.isStable then x else .ok v.release
             .ok (v.withoutTagsAndLocal.setRelease r) : Except PyErr Version) = .ok w) : w.Canonical := by
  split at h
  · cases x with
    | error e => cases h
    | ok r => cases h; exact canonical_setRelease (canonical_final hv) (hx r rfl)
  · cases h; exact canonical_setRelease (canonical_final hv) (canonical_good hv)

theorem canonical_nextAt {v w : Version} {i : Int} (hv : v.Canonical) (h : v.nextAt i = .ok w) : w.Canonical :=
  canonical_bump (x := v.release.nextAt i) hv (fun _ hr => nextAt_good (canonical_good hv) hr) h

theorem canonical_toStable {v : Version} (hv : v.Canonical) : v.toStable.Canonical := by
  unfold Version.toStable
  split
  · exact hv
  · exact canonical_final hv

theorem canonical_nextBreaking {v w : Version} (hv : v.Canonical) (h : v.nextBreaking = .ok w) : w.Canonical := by
  unfold Version.nextBreaking at h
  cases hm : v.major with
  | error e => simp [hm, bind, Except.bind] at h
  | ok m =>
    simp only [hm, bind, Except.bind] at h
    split at h
    · cases hn : v.minor with
      | error e => simp [hn] at h
      | ok n =>
        simp only [hn] at h
        split at h
        · exact canonical_nextAt (i := 1) hv h
        · split at h
          · exact canonical_nextAt (i := 2) hv h
          · split at h
            · exact canonical_nextAt (i := 1) hv h
            · exact canonical_nextAt (i := 0) hv h
    · exact canonical_nextAt (i := 0) (canonical_toStable hv) h

theorem canonical_weaken {v u : Version} (hu : u.Canonical) : (v.weaken u).Canonical := by
  have hl : u.withoutLocal.Canonical := by
    rw [canonical_iff_good] at hu ⊢
    exact ⟨hu.1, hu.2.1, hu.2.2.1, hu.2.2.2.1, hu.2.2.2.2.1, fineLocal_none⟩
  have hp : ∀ x : Version, x.Canonical → x.withoutPost.Canonical := by
    intro x hx
    rw [canonical_iff_good] at hx ⊢
    exact ⟨hx.1, hx.2.1, hx.2.2.1, fineTag_none _, hx.2.2.2.2⟩
  unfold Version.weaken
  simp only
  split_ifs
  · exact hp _ hl
  · exact hl
  · exact hp _ hu
  · exact hu

/-- C112. Calls with plain arguments make canonical versions of canonical versions. -/
theorem C112_call (c : Call) (hc : c.Plain Version.Canonical) (v w : Version) (hv : v.Canonical) (h : c.run v = .ok (some w)) : w.Canonical := by
  have hg := canonical_good hv
  obtain ⟨v1, v2, v3, v4, v5, v6⟩ := (canonical_iff_good v).1 hv
  cases c with
  | setEpoch e => cases h; exact (canonical_iff_good _).2 ⟨hc, v2, v3, v4, v5, v6⟩
  | setEpochValue n => cases h; exact (canonical_iff_good _).2 ⟨hc, v2, v3, v4, v5, v6⟩
  | nextEpoch => cases h; exact (canonical_iff_good _).2 ⟨by show 0 ≤ v.epoch.value + 1; omega, v2, v3, v4, v5, v6⟩
  | setRelease r => cases h; exact canonical_setRelease hv (plainRelease_good hc)
  | setReleaseParts l => exact canonical_release hv (fun r hr => create_good hc hr) h
  | slice i => exact canonical_release hv (fun r hr => slice_good hg hr) h
  | setMajor n => exact canonical_release hv (fun r hr => setAt_good hg hc hr) h
  | setMinor n => exact canonical_release hv (fun r hr => setAt_good hg hc hr) h
  | setMicro n => exact canonical_release hv (fun r hr => setAt_good hg hc hr) h
  | setPatch n => exact canonical_release hv (fun r hr => setAt_good hg hc hr) h
  | setAt i n => exact canonical_release hv (fun r hr => setAt_good hg hc hr) h
  | setAtUnchecked i n => exact canonical_release hv (fun r hr => setAtUnchecked_good hg hc hr) h
  | padTo n p => exact canonical_release hv (fun r hr => padTo_good hg hc hr) h
  | padToIndex n p => exact canonical_release hv (fun r hr => padTo_good hg hc hr) h
  | padToNext p => exact canonical_release hv (fun r hr => padTo_good hg hc hr) h
  | toSemantic => exact canonical_release hv (fun r hr => toSemantic_good hg hr) h
  | nextMajor =>
    simp only [Call.run] at h
    cases hx : v.nextMajor with
    | error e => rw [hx] at h; cases h
    | ok x => rw [hx] at h; cases h; exact canonical_nextAt (i := 0) hv hx
  | nextMinor =>
    simp only [Call.run] at h
    cases hx : v.nextMinor with
    | error e => rw [hx] at h; cases h
    | ok x => rw [hx] at h; cases h; exact canonical_nextAt (i := 1) hv hx
  | nextMicro =>
    simp only [Call.run] at h
    cases hx : v.nextMicro with
    | error e => rw [hx] at h; cases h
    | ok x => rw [hx] at h; cases h; exact canonical_nextAt (i := 2) hv hx
  | nextPatch =>
    simp only [Call.run] at h
    cases hx : v.nextPatch with
    | error e => rw [hx] at h; cases h
    | ok x => rw [hx] at h; cases h; exact canonical_nextAt (i := 2) hv hx
  | nextAt i =>
    simp only [Call.run] at h
    cases hx : v.nextAt i with
    | error e => rw [hx] at h; cases h
    | ok x => rw [hx] at h; cases h; exact canonical_nextAt hv hx
  | nextBreaking =>
    simp only [Call.run] at h
    cases hx : v.nextBreaking with
    | error e => rw [hx] at h; cases h
    | ok x => rw [hx] at h; cases h; exact canonical_nextBreaking hv hx
  | toStable => cases h; exact canonical_toStable hv
  | toStableUnchecked => cases h; exact canonical_final hv
  | normalize =>
    simp only [Call.run] at h
    cases hx : v.normalize with
    | error e => rw [hx] at h; cases h
    | ok x =>
      rw [hx] at h; cases h
      have hw := (C14_normal_form v w hv.valid hx).1
      rw [C14_normalize v hv.valid] at hx
      cases hx
      have keep : ∀ o : Option Tag, (∀ t, o = some t → 0 ≤ t.value) → ∀ t, o.map Tag.normalized = some t → 0 ≤ t.value := by
        rintro (_ | u) ho t ht
        · cases ht
        · cases ht; exact ho u rfl
      exact ⟨hw, hv.epoch, hv.release, keep _ hv.pre, keep _ hv.post, keep _ hv.dev, hv.local_⟩
  | nextPre =>
    simp only [Call.run, Version.nextPre] at h
    cases hp : v.pre with
    | none =>
      cases hd : Tag.default .pre with
      | error e => simp [hp, hd, bind, Except.bind, Except.map] at h
      | ok t =>
        simp only [hp, hd, bind, Except.bind, Except.map] at h
        cases h
        exact (canonical_iff_good _).2 ⟨v1, v2, fineTag_create (le_refl 0) hd, fineTag_none _, fineTag_none _, fineLocal_none⟩
    | some u =>
      cases hd : u.next .pre with
      | error e => simp [hp, hd, bind, Except.bind, Except.map] at h
      | ok t =>
        simp only [hp, hd, bind, Except.bind, Except.map] at h
        cases h
        exact (canonical_iff_good _).2 ⟨v1, v2, fineTag_next (hp ▸ v3) hd, fineTag_none _, fineTag_none _, fineLocal_none⟩
  | nextPrePhase =>
    simp only [Call.run, Version.nextPrePhase] at h
    cases hp : v.pre with
    | none =>
      cases hd : Tag.default .pre with
      | error e => simp [hp, hd, bind, Except.bind] at h
      | ok t =>
        simp only [hp, hd, bind, Except.bind] at h
        cases h
        exact (canonical_iff_good _).2 ⟨v1, v2, fineTag_create (le_refl 0) hd, fineTag_none _, fineTag_none _, fineLocal_none⟩
    | some u =>
      cases hd : u.nextPhase .pre with
      | error e => simp [hp, hd, bind, Except.bind] at h
      | ok t =>
        simp only [hp, hd, bind, Except.bind] at h
        cases t with
        | none => cases h
        | some t =>
          cases h
          exact (canonical_iff_good _).2 ⟨v1, v2, fineTag_nextPhase hd, fineTag_none _, fineTag_none _, fineLocal_none⟩
  | nextPost =>
    simp only [Call.run, Version.nextPost] at h
    cases hp : v.post with
    | none =>
      cases hd : Tag.default .post with
      | error e => simp [hp, hd, bind, Except.bind, Except.map] at h
      | ok t =>
        simp only [hp, hd, bind, Except.bind, Except.map] at h
        cases h
        exact (canonical_iff_good _).2 ⟨v1, v2, v3, fineTag_create (le_refl 0) hd, fineTag_none _, fineLocal_none⟩
    | some u =>
      cases hd : u.next .post with
      | error e => simp [hp, hd, bind, Except.bind, Except.map] at h
      | ok t =>
        simp only [hp, hd, bind, Except.bind, Except.map] at h
        cases h
        exact (canonical_iff_good _).2 ⟨v1, v2, v3, fineTag_next (hp ▸ v4) hd, fineTag_none _, fineLocal_none⟩
  | nextDev =>
    simp only [Call.run, Version.nextDev] at h
    cases hp : v.dev with
    | none =>
      cases hd : Tag.default .dev with
      | error e => simp [hp, hd, bind, Except.bind, Except.map] at h
      | ok t =>
        simp only [hp, hd, bind, Except.bind, Except.map] at h
        cases h
        exact (canonical_iff_good _).2 ⟨v1, v2, v3, v4, fineTag_create (le_refl 0) hd, fineLocal_none⟩
    | some u =>
      cases hd : u.next .dev with
      | error e => simp [hp, hd, bind, Except.bind, Except.map] at h
      | ok t =>
        simp only [hp, hd, bind, Except.bind, Except.map] at h
        cases h
        exact (canonical_iff_good _).2 ⟨v1, v2, v3, v4, fineTag_next (hp ▸ v5) hd, fineLocal_none⟩
  | setPre t => cases h; exact (canonical_iff_good _).2 ⟨v1, v2, PlainTag.fine hc, v4, v5, v6⟩
  | setPost t => cases h; exact (canonical_iff_good _).2 ⟨v1, v2, v3, PlainTag.fine hc, v5, v6⟩
  | setDev t => cases h; exact (canonical_iff_good _).2 ⟨v1, v2, v3, v4, PlainTag.fine hc, v6⟩
  | setTags p q d => cases h; exact (canonical_iff_good _).2 ⟨v1, v2, PlainTag.fine hc.1, PlainTag.fine hc.2.1, PlainTag.fine hc.2.2, v6⟩
  | setLocal l => cases h; exact (canonical_iff_good _).2 ⟨v1, v2, v3, v4, v5, PlainLocal.fine hc⟩
  | setLocalParts l =>
    simp only [Call.run, Version.setLocalParts] at h
    cases hl : Local.create l with
    | error e => simp [hl, bind, Except.bind, Except.map] at h
    | ok x =>
      simp only [hl, bind, Except.bind, Except.map] at h
      cases h
      refine (canonical_iff_good _).2 ⟨v1, v2, v3, v4, v5, ?_⟩
      rintro y ⟨⟩
      unfold Local.create at hl
      split at hl
      · cases hl
      · rename_i hne; cases hl; exact ⟨by simpa using hne, hc⟩
  | setDevAndLocal d l => cases h; exact (canonical_iff_good _).2 ⟨v1, v2, v3, v4, PlainTag.fine hc.1, PlainLocal.fine hc.2⟩
  | setTagsAndLocal p q d l =>
    cases h
    exact (canonical_iff_good _).2 ⟨v1, v2, PlainTag.fine hc.1, PlainTag.fine hc.2.1, PlainTag.fine hc.2.2.1, PlainLocal.fine hc.2.2.2⟩
  | withoutPre => cases h; exact (canonical_iff_good _).2 ⟨v1, v2, fineTag_none _, v4, v5, v6⟩
  | withoutPost => cases h; exact (canonical_iff_good _).2 ⟨v1, v2, v3, fineTag_none _, v5, v6⟩
  | withoutDev => cases h; exact (canonical_iff_good _).2 ⟨v1, v2, v3, v4, fineTag_none _, v6⟩
  | withoutTags => cases h; exact (canonical_iff_good _).2 ⟨v1, v2, fineTag_none _, fineTag_none _, fineTag_none _, v6⟩
  | withoutLocal => cases h; exact (canonical_iff_good _).2 ⟨v1, v2, v3, v4, v5, fineLocal_none⟩
  | withoutDevAndLocal => cases h; exact (canonical_iff_good _).2 ⟨v1, v2, v3, v4, fineTag_none _, fineLocal_none⟩
  | withoutTagsAndLocal => cases h; exact canonical_final hv
  | weaken other => cases h; exact canonical_weaken hc

/-- A negative index, and a local segment. -/
example : (Call.nextAt (-2)).run (exVersion [1, 2, 3]) = .ok (some (exVersion [1, 3, 0])) ∧ (exVersion [1, 3, 0]).Canonical ∧
    (Call.setLocalParts [.str "ab".toList, .int 3]).Plain Version.Canonical ∧
    (Call.setLocalParts [.str "ab".toList, .int 3]).run (exVersion [1]) = .ok (some (exVersion [1] none none none (some ⟨[.str "ab".toList, .int 3]⟩))) :=
  ⟨by decide +kernel, by decide +kernel, by unfold Call.Plain PlainParts; decide +kernel, by decide +kernel⟩

theorem Call.Plain.mono {P Q : Version → Prop} (h : ∀ v, P v → Q v) {c : Call} (hc : c.Plain P) : c.Plain Q := by
  cases c <;> first | exact h _ hc | exact hc

/-- C112. The versions that programs make, by parsing, constructing and calling methods with plain arguments, are exactly the canonical
ones: those that a string denotes. -/
theorem C112_made (v : Version) : Made v ↔ ∃ s, Version.parse s = .ok v := by
  constructor
  · intro h
    refine ⟨v.toShortStr, C38_short_round_trip v ?_⟩
    induction h with
    | parse s v h => exact C40_canonical s v h
    | fromParts parts e p q d l v hr he hp hq hd hl h =>
      unfold Version.fromParts at h
      cases hx : Release.create parts with
      | error e => simp [hx, bind, Except.bind] at h
      | ok r =>
        simp only [hx, bind, Except.bind] at h
        cases h
        refine (canonical_iff_good _).2 ⟨?_, create_good hr hx, hp.fine, hq.fine, hd.fine, hl.fine⟩
        cases e with
        | none => exact le_refl 0
        | some x => exact he x rfl
    | create e r p q d l hr he hp hq hd hl =>
      refine (canonical_iff_good _).2 ⟨?_, ?_, hp.fine, hq.fine, hd.fine, hl.fine⟩
      · cases e with
        | none => exact le_refl 0
        | some x => exact he x rfl
      · cases r with
        | none => exact ⟨show [0, 0, 0] ≠ ([] : List Int) by decide, show ∀ x ∈ ([0, 0, 0] : List Int), 0 ≤ x by decide⟩
        | some x => exact plainRelease_good (hr x rfl)
    | call v _ c hc w h ih => exact C112_call c (hc.mono fun _ h => h.elim) v w ih h
    | weaken v u _ _ _ ihu => exact canonical_weaken ihu
  · rintro ⟨s, h⟩
    exact .parse s v h

/-- C112. So every version that a program makes is read back from its short string. From the other string it is read back exactly if the
phase of its pre-release is not `candidate` (C39), which it is not after `normalize`; no program makes two versions with the same string. -/
theorem C112_read_back (v : Version) (h : Made v) :
    Version.parse v.toShortStr = .ok v ∧ (Version.parse v.toStr = .ok v ↔ ∀ t, v.pre = some t → t.phase ≠ "candidate".toList) ∧
    (∃ w, v.normalize = .ok w ∧ Made w ∧ Version.parse w.toStr = .ok w) ∧
    ∀ w, Made w → (w.toStr = v.toStr ∨ w.toShortStr = v.toShortStr) → w = v := by
  have canon : ∀ v, Made v → v.Canonical := fun v h => by
    obtain ⟨s, hs⟩ := (C112_made v).1 h
    exact C40_canonical s v hs
  have hv := canon v h
  have hn := C14_normalize v hv.valid
  have mw := Made.call v h .normalize trivial _ (by simp only [Call.run, hn]; rfl)
  refine ⟨C38_short_round_trip v hv, C39_iff v hv, ⟨_, hn, mw, ?_⟩, fun w hw => ?_⟩
  · refine (C39_iff _ (canon _ mw)).2 fun t ht hc => ?_
    have := (C14_normal_form v _ hv.valid hn).2.2.1 t ht
    rw [hc] at this
    revert this
    decide +kernel
  · rintro (e | e)
    · exact (C83_string w v (canon w hw) hv).1 e
    · exact C38_short_injective w v (canon w hw) hv e

/-- `1.0c2` is read as a candidate, whose string `1.0-candidate.2` is not read; normalized, it is `1.0-rc.2`. -/
example : Made (exVersion [1, 0] (some ⟨"candidate".toList, 2⟩)) ∧ Version.parse (exVersion [1, 0] (some ⟨"candidate".toList, 2⟩)).toStr = .error .parseVersionError ∧
    Made (exVersion [1, 0] (some ⟨"rc".toList, 2⟩)) :=
  ⟨.parse "1.0c2".toList _ (by decide +kernel), by decide +kernel,
    .call (exVersion [1, 0] (some ⟨"candidate".toList, 2⟩)) (.parse "1.0c2".toList _ (by decide +kernel)) .normalize trivial _ (by decide +kernel)⟩

/-- C112, a surprise. The setters accept negative numbers; no string denotes what they then return. -/
theorem C112_negative (v : Version) (hv : v.Valid) (n : Int) (hn : n < 0) :
    (∀ i : Nat, ∃ w, (Call.setAt i n).run v = .ok (some w) ∧ ¬ Made w) ∧
    (∃ w, (Call.setEpochValue n).run v = .ok (some w) ∧ ¬ Made w) ∧
    ∀ phase t, Tag.create .pre phase n = .ok t → ∃ w, (Call.setPre (some t)).run v = .ok (some w) ∧ ¬ Made w := by
  have canon : ∀ v, Made v → v.Canonical := fun v h => by
    obtain ⟨s, hs⟩ := (C112_made v).1 h
    exact C40_canonical s v hs
  refine ⟨fun i => ?_, ⟨_, rfl, fun h => ?_⟩, fun phase t ht => ⟨_, rfl, fun h => ?_⟩⟩
  · obtain ⟨w, h1, h2, h3, -⟩ := C06_set_at v hv i n
    refine ⟨w, by simp only [Call.run, h1]; rfl, fun h => ?_⟩
    have hw := (canon w h).release
    have hp := h2 i
    rw [if_pos rfl] at hp
    have hlt : i < w.release.parts.length := by
      have : w.precision = w.release.parts.length := rfl
      omega
    have : w.release.part i = w.release.parts[i] := by simp [Release.part, hlt]
    have := hw _ (List.getElem_mem hlt)
    omega
  · have : 0 ≤ n := (canon _ h).epoch
    omega
  · have := (canon _ h).pre t rfl
    have := (tag_create_ok_valid ht).2.1
    omega

example : (Call.setAt 0 (-1)).run (exVersion [1, 2]) = .ok (some (exVersion [-1, 2])) ∧ (exVersion [-1, 2]).toStr = "-1.2".toList ∧
    Version.parse "-1.2".toList = .error .parseVersionError ∧ Tag.create .pre "rc".toList (-1) = .ok ⟨"rc".toList, -1⟩ := by decide +kernel

/-- Which exception a call raises, if any. -/
def Call.raises (c : Call) (v : Version) : Option PyErr :=
  let p : Int := v.release.parts.length
  match c with
  | setReleaseParts l => if l = [] then some .valueError else none
  | setLocalParts l => if l = [] then some .valueError else none
  | slice i => if i = 0 ∨ i ≤ -p then some .valueError else none
  | setAt i _ => if i < -p then some .indexError else none
  | setAtUnchecked i _ => if i < -p ∨ p ≤ i then some .indexError else none
  | nextAt i => if v.pre ≠ none ∨ v.dev ≠ none then none else if i < -p then some .indexError else if i = -1 then some .valueError else none
  | _ => none

theorem padTo_any (r : Release) (h : r.parts ≠ []) (n p : Int) : ∃ q, r.padTo n p = .ok q := by
  unfold Release.padTo
  split
  · rename_i hlt
    refine ⟨_, create_ok ?_⟩
    have := List.length_pos_iff.2 h
    rw [← List.length_pos_iff, fixToLength_length]
    unfold Release.precision at hlt
    omega
  · exact ⟨r, rfl⟩

theorem tag_default_ok (cls : TagClass) : ∃ t, Tag.default cls = .ok t := by
  cases cls <;> exact ⟨_, rfl⟩

theorem tag_next_ok {cls : TagClass} {t : Tag} (h : t.Valid cls) : ∃ u, t.next cls = .ok u :=
  ⟨_, tag_create_valid h _⟩

/-- C112. A call raises exactly that exception: nothing but a missing part, an index before the first part, an index after the last
one where it is not checked, and `next_at(-1)`. -/
theorem C112_exceptions (c : Call) (v : Version) (hv : v.Valid) :
    match c.raises v with
    | some e => c.run v = .error e
    | none => ∃ o, c.run v = .ok o := by
  have hr := hv.release
  have hpos := List.length_pos_iff.2 hr
  have bump : ∀ i : Nat, ∃ w, v.nextAt i = .ok w := fun i => by
    obtain ⟨w, h, -⟩ := nextAt_spec v hv i; exact ⟨w, h⟩
  have rel : ∀ x : Except PyErr Release, (∃ q, x = .ok q) → ∃ o, (do .ok (v.setRelease (← x)) : Except PyErr Version).map some = .ok o := by
    rintro _ ⟨q, rfl⟩; exact ⟨_, rfl⟩
  have relE : ∀ (x : Except PyErr Release) e, x = .error e → (do .ok (v.setRelease (← x)) : Except PyErr Version).map some = .error e := by
    rintro _ e rfl; rfl
  have up : ∀ {x : Except PyErr Version}, (∃ w, x = .ok w) → ∃ o, x.map some = .ok o := by
    rintro _ ⟨w, rfl⟩; exact ⟨_, rfl⟩
  have set_nat : ∀ (i : Nat) x, ∃ q, v.release.setAt i x = .ok q := fun i x => by
    obtain ⟨q, h, -⟩ := setAt_nat v.release hr i x; exact ⟨q, h⟩
  cases c with
  | setReleaseParts l =>
    simp only [Call.raises]
    by_cases hl : l = []
    · rw [if_pos hl]; subst hl; rfl
    · rw [if_neg hl]; exact rel _ ⟨_, create_ok hl⟩
  | setLocalParts l =>
    simp only [Call.raises]
    by_cases hl : l = []
    · rw [if_pos hl]; subst hl; rfl
    · rw [if_neg hl]
      have : Local.create l = .ok ⟨l⟩ := by unfold Local.create; rw [if_neg (by simpa using hl)]
      exact ⟨_, by simp only [Call.run, Version.setLocalParts, this]; rfl⟩
  | slice i =>
    simp only [Call.raises]
    have key : v.release.sliceParts i = [] ↔ i = 0 ∨ i ≤ -(v.release.parts.length : Int) := by
      unfold Release.sliceParts pySliceTo
      split
      · rw [List.take_eq_nil_iff]
        constructor
        · rintro (h | h)
          · omega
          · exact absurd h hr
        · intro h; left; omega
      · rw [List.take_eq_nil_iff]
        constructor
        · rintro (h | h)
          · omega
          · exact absurd h hr
        · intro h; left; omega
    by_cases hi : i = 0 ∨ i ≤ -(v.release.parts.length : Int)
    · rw [if_pos hi]
      refine relE _ _ ?_
      unfold Release.slice
      rw [key.2 hi]; rfl
    · rw [if_neg hi]
      exact rel _ ⟨_, create_ok (fun h => hi (key.1 h))⟩
  | setAt i x =>
    simp only [Call.raises]
    by_cases hi : i < -(v.release.parts.length : Int)
    · rw [if_pos hi]
      obtain ⟨-, -, h3, -⟩ := C64_before_start v (-i).toNat x 0 (by show v.release.parts.length < _; omega)
      rw [show (-((-i).toNat : Int)) = i by omega] at h3
      simp only [Call.run, h3]; rfl
    · rw [if_neg hi]
      by_cases h0 : 0 ≤ i
      · obtain ⟨q, h⟩ := set_nat i.toNat x
        rw [show ((i.toNat : Nat) : Int) = i by omega] at h
        exact rel _ ⟨q, h⟩
      · obtain ⟨-, h⟩ := C64_back v (i + v.release.parts.length).toNat x 0 (by show _ < v.release.parts.length; omega)
        have e : (((i + v.release.parts.length).toNat : Nat) : Int) - v.precision = i := by
          show _ - (v.release.parts.length : Int) = i; omega
        rw [e] at h
        simp only [Call.run, h]
        exact rel _ (set_nat _ x)
  | setAtUnchecked i x =>
    simp only [Call.raises]
    have hu := (C06_unchecked v i x).2
    have hp : (v.precision : Int) = v.release.parts.length := rfl
    by_cases hi : i < -(v.release.parts.length : Int) ∨ (v.release.parts.length : Int) ≤ i
    · rw [if_pos hi]
      have := hu.2 (by omega)
      simp only [Call.run, this]; rfl
    · rw [if_neg hi]
      have hne : v.setAtUnchecked i x ≠ .error .indexError := fun h => hu.1 h (by omega)
      cases hs : v.setAtUnchecked i x with
      | ok w => exact ⟨some w, by simp only [Call.run, hs]; rfl⟩
      | error e =>
        exfalso
        unfold Version.setAtUnchecked Release.setAtUnchecked pySet at hs hne
        cases hk : pyIndex v.release.parts.length i with
        | none => simp [hk, bind, Except.bind] at hne
        | some k =>
          have hc : Release.create (v.release.parts.set k x) = .ok ⟨v.release.parts.set k x⟩ := create_ok (by simpa using hr)
          simp [hk, bind, Except.bind, hc] at hs
  | nextAt i =>
    simp only [Call.raises]
    cases hst : v.isStable with
    | false =>
      rw [if_pos ((unstable_iff v).1 hst)]
      exact ⟨_, by simp only [Call.run, Version.nextAt, hst]; rfl⟩
    | true =>
      obtain ⟨s1, s2⟩ := (stable_iff v).1 hst
      rw [if_neg (by simp [s1, s2])]
      have nx : ∀ x, v.release.nextAt i = x → (Call.nextAt i).run v = (do .ok (v.withoutTagsAndLocal.setRelease (← x)) : Except PyErr Version).map some := by
        rintro x rfl
        simp only [Call.run, Version.nextAt, hst]; rfl
      by_cases hi : i < -(v.release.parts.length : Int)
      · rw [if_pos hi]
        obtain ⟨-, -, -, h4⟩ := C64_before_start v (-i).toNat 0 0 (by show v.release.parts.length < _; omega)
        rw [show (-((-i).toNat : Int)) = i by omega] at h4
        show _ = _
        rw [nx _ h4]; rfl
      · rw [if_neg hi]
        by_cases h0 : 0 ≤ i
        · rw [if_neg (by omega)]
          obtain ⟨w, h⟩ := bump i.toNat
          rw [show ((i.toNat : Nat) : Int) = i by omega] at h
          exact ⟨some w, by simp only [Call.run, h]; rfl⟩
        · have h := C64_next_back v.release (i + v.release.parts.length).toNat (by unfold Release.precision; omega)
          have e : (((i + v.release.parts.length).toNat : Nat) : Int) - v.release.precision = i := by
            unfold Release.precision; omega
          rw [e] at h
          by_cases h1 : i = -1
          · rw [if_pos h1]
            rw [if_pos (by unfold Release.precision; omega)] at h
            show _ = _
            rw [nx _ h]; rfl
          · rw [if_neg h1]
            rw [if_neg (by unfold Release.precision; omega)] at h
            obtain ⟨q, hq, -⟩ := nextAt_nat v.release hr (i + v.release.parts.length).toNat
            rw [hq] at h
            rw [nx _ h]
            exact ⟨_, rfl⟩
  | setMajor n => exact rel _ (set_nat 0 n)
  | setMinor n => exact rel _ (set_nat 1 n)
  | setMicro n => exact rel _ (set_nat 2 n)
  | setPatch n => exact rel _ (set_nat 2 n)
  | padTo n p => exact rel _ (padTo_any _ hr n p)
  | padToIndex n p => exact rel _ (padTo_any _ hr _ p)
  | padToNext p => exact rel _ (padTo_any _ hr _ p)
  | nextMajor => exact up (bump 0)
  | nextMinor => exact up (bump 1)
  | nextMicro => exact up (bump 2)
  | nextPatch => exact up (bump 2)
  | nextBreaking => obtain ⟨w, h, -⟩ := caret_spec hv; exact up ⟨w, h⟩
  | toSemantic =>
    refine rel _ ?_
    unfold Release.toSemantic
    split
    · obtain ⟨q, h1, h2, -⟩ := nextAt_nat v.release hr 2
      have h1 : v.release.nextPatch = .ok q := h1
      simp only [h1, bind, Except.bind]
      refine ⟨_, create_ok ?_⟩
      unfold Release.sliceParts pySliceTo
      rw [if_pos (by omega), ne_eq, List.take_eq_nil_iff]
      rintro (h | h)
      · exact absurd h (by decide)
      · unfold Release.precision at h2
        rw [h] at h2
        simp at h2
        omega
    · split
      · exact ⟨_, rfl⟩
      · exact padTo_any _ hr 3 0
  | normalize => exact up ⟨_, C14_normalize v hv⟩
  | nextPre =>
    simp only [Call.raises, Call.run, Version.nextPre]
    cases hp : v.pre with
    | none => obtain ⟨t, ht⟩ := tag_default_ok .pre; exact ⟨_, by simp only [ht]; rfl⟩
    | some u => obtain ⟨t, ht⟩ := tag_next_ok (hv.pre u hp); exact ⟨_, by simp only [ht]; rfl⟩
  | nextPost =>
    simp only [Call.raises, Call.run, Version.nextPost]
    cases hp : v.post with
    | none => obtain ⟨t, ht⟩ := tag_default_ok .post; exact ⟨_, by simp only [ht]; rfl⟩
    | some u => obtain ⟨t, ht⟩ := tag_next_ok (hv.post u hp); exact ⟨_, by simp only [ht]; rfl⟩
  | nextDev =>
    simp only [Call.raises, Call.run, Version.nextDev]
    cases hp : v.dev with
    | none => obtain ⟨t, ht⟩ := tag_default_ok .dev; exact ⟨_, by simp only [ht]; rfl⟩
    | some u => obtain ⟨t, ht⟩ := tag_next_ok (hv.dev u hp); exact ⟨_, by simp only [ht]; rfl⟩
  | nextPrePhase =>
    simp only [Call.raises, Call.run, Version.nextPrePhase]
    cases hp : v.pre with
    | none => obtain ⟨t, ht⟩ := tag_default_ok .pre; exact ⟨_, by simp only [ht]; rfl⟩
    | some u =>
      have : ∃ t, u.nextPhase .pre = .ok t := by
        unfold Tag.nextPhase
        cases hd : dictGet Phases.toNext u.phase with
        | none => exact ⟨_, rfl⟩
        | some q =>
          have hq : ∀ e ∈ Phases.toNext, ∃ t, Tag.create .pre e.2 u.value = .ok t ∧ ∃ z, t.setValue .pre 0 = .ok z := by
            intro e he
            have hm : e.2 = "beta".toList ∨ e.2 = "b".toList ∨ e.2 = "rc".toList := by
              revert he; revert e; decide +kernel
            rcases hm with h | h | h <;> rw [h] <;> exact ⟨_, rfl, _, rfl⟩
          obtain ⟨t, h1, z, h2⟩ := hq _ (dictGet_mem hd)
          have h1 : u.setPhase .pre q = .ok t := h1
          exact ⟨some z, by simp only [h1, h2, bind, Except.bind]⟩
      obtain ⟨t, ht⟩ := this
      simp only [ht, bind, Except.bind]
      cases t <;> exact ⟨_, rfl⟩
  | _ => exact ⟨_, rfl⟩

example : (Call.nextAt (-1)).run (exVersion [1, 2]) = .error .valueError ∧ (Call.nextAt (-1)).run (exVersion [1, 2] (some rcTag)) = .ok (some (exVersion [1, 2])) ∧
    (Call.slice (-2)).run (exVersion [1, 2]) = .error .valueError ∧ (Call.slice (-1)).run (exVersion [1, 2]) = .ok (some (exVersion [1])) ∧
    (Call.setAt 4 7).run (exVersion [1, 2]) = .ok (some (exVersion [1, 2, 0, 0, 7])) ∧ (Call.setAtUnchecked 4 7).run (exVersion [1, 2]) = .error .indexError ∧
    (Call.setAt (-3) 7).run (exVersion [1, 2]) = .error .indexError := by decide +kernel

end Verif
