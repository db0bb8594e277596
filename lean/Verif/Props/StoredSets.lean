import Verif.Proofs.Sessions
import Verif.Props.SetReading
import Verif.Props.Shape
/-!
# C121: keeping version sets as strings between operations
-/

namespace Verif
open scoped Verif

/-- The operations on two version sets. -/
inductive SetCommand
  | intersection
  | union
  | difference
  | symmetricDifference

/-- The operation of the library. -/
def SetCommand.run (lim : Nat) : SetCommand → VSet → VSet → Except PyErr VSet
  | intersection, a, b => a.intersection lim b
  | union, a, b => a.unionWith lim b
  | difference, a, b => a.difference lim b
  | symmetricDifference, a, b => a.symmetricDifference lim b

/-- Programs that read requirement strings and combine the sets. -/
inductive SetProgram
  | text (s : PyStr)
  | op (o : SetCommand) (p q : SetProgram)
  | complement (p : SetProgram)

namespace SetProgram

/-- The set when all results are kept as sets. -/
def run (lim : Nat) : SetProgram → Except PyErr VSet
  | text s => VSet.parse lim s
  | op o p q => do
    let x ← p.run lim
    let y ← q.run lim
    o.run lim x y
  | complement p => do
    let x ← p.run lim
    x.complement lim

/-- The string when each result is stored as its short string and read again for use. -/
def runStored (lim : Nat) : SetProgram → Except PyErr PyStr
  | text s => .ok s
  | op o p q => do
    let x ← VSet.parse lim (← p.runStored lim)
    let y ← VSet.parse lim (← q.runStored lim)
    (← o.run lim x y).toShortStr lim
  | complement p => do
    let x ← VSet.parse lim (← p.runStored lim)
    (← x.complement lim).toShortStr lim

/-- None of the operations gives the empty set. -/
def NeverEmpty (lim : Nat) : SetProgram → Prop
  | text _ => True
  | op o p q => p.NeverEmpty lim ∧ q.NeverEmpty lim ∧ (op o p q).run lim ≠ .ok .empty
  | complement p => p.NeverEmpty lim ∧ (complement p).run lim ≠ .ok .empty

/-- No string of the program denotes a set with an end that has a local segment. -/
def Public (lim : Nat) : SetProgram → Prop
  | text s => ∀ x, VSet.parse lim s = .ok x → ∀ i, x.Has i → ∀ v, i.min = some v ∨ i.max = some v → v.local_ = none
  | op _ p q => p.Public lim ∧ q.Public lim
  | complement p => p.Public lim

end SetProgram

/-- Versions that ranges in readable strings may have as ends. -/
def PlainEnd (v : Version) : Prop := v.Canonical ∧ v.local_ = none

theorem ends_same {P : Version → Prop} (hP : ∀ v w : Version, v.key = w.key → P v → P w) {x y : VSet} (h : SameSet (.ok x) (.ok y))
    (hx : AllEnds P x.extract) : AllEnds P y.extract := by
  obtain ⟨h1, h2, h3⟩ := h
  have he := cov_ext h1.allNormal h1.gaps h2.allNormal h2.gaps h3
  intro j hj
  have : (j.lo, j.hi) ∈ x.extract.map (fun i => (i.lo, i.hi)) := he ▸ List.mem_map.2 ⟨j, hj, rfl⟩
  obtain ⟨i, hi, e⟩ := List.mem_map.1 this
  simp only [Prod.mk.injEq] at e
  obtain ⟨e1, e2⟩ := e
  constructor
  · intro v hv
    rw [Item.lo, Item.lo, hv] at e1
    cases hm : i.min with
    | none => rw [hm] at e1; exact absurd e1 (bot_lt_cutAt _ _).ne
    | some w =>
      rw [hm] at e1
      exact hP w v ((cutAt_eq _ _ _ _).1 e1).1 ((hx i hi).1 w hm)
  · intro v hv
    rw [Item.hi, Item.hi, hv] at e2
    cases hm : i.max with
    | none => rw [hm] at e2; exact absurd e2.symm (cutAt_lt_top _ _).ne
    | some w =>
      rw [hm] at e2
      exact hP w v ((cutAt_eq _ _ _ _).1 e2).1 ((hx i hi).2 w hm)

theorem SetCommand.same (o : SetCommand) {a a' b b' : VSet} (ha : SameSet (.ok a) (.ok a')) (hb : SameSet (.ok b) (.ok b')) (lim : Nat) :
    SameSet (o.run (lim + 2) a b) (o.run (lim + 2) a' b') := by
  cases o with
  | intersection => exact inter_same ha hb _
  | union => exact union_same ha hb _
  | difference => exact difference_same ha hb _
  | symmetricDifference => exact symmetricDifference_same ha hb _

/-- A result is read back from its short string. -/
theorem stored {x y : VSet} (h : SameSet (.ok x) (.ok y)) (hne : x ≠ .empty) (hy : AllEnds PlainEnd y.extract) (lim : Nat) :
    ∃ z, (do VSet.parse (lim + 2) (← y.toShortStr (lim + 2))) = .ok z ∧ SameSet (.ok x) (.ok z) := by
  have hne' : y ≠ .empty := by
    rintro rfl
    rcases h.shape with ⟨h, -⟩ | ⟨_, _, -, h, -⟩ | ⟨_, _, -, h, -⟩
    · exact hne h
    · cases h
    · cases h
  have hc : ∀ i, y.Has i → ∀ v, i.min = some v ∨ i.max = some v → PlainEnd v := fun i hi v hv => by
    have := hy i ((has_iff _ _).1 hi)
    exact hv.elim (this.1 v) (this.2 v)
  obtain ⟨s, z, s1, z1, z2, z3⟩ := C45_short y h.2.1 hne' (fun i hi v hv => (hc i hi v hv).1) (fun r hr v hv => (hc _ hr v hv).2)
  refine ⟨z, by rw [s1]; exact z1 lim, h.1, z2, fun c => ?_⟩
  rw [h.2.2, ((eq_iff_cov z2 h.2.1).1 z3 c)]

theorem SetCommand.plain (o : SetCommand) {P : Version → Prop} {a b s : VSet} {lim : Nat} (ha : AllEnds P a.extract) (hb : AllEnds P b.extract)
    (h : o.run lim a b = .ok s) : AllEnds P s.extract := by
  intro i hi
  refine C48_ends_from_operands P a b s lim (fun i hi => ha i ((has_iff _ _).1 hi)) (fun i hi => hb i ((has_iff _ _).1 hi)) ?_ i ((has_iff _ _).2 hi)
  cases o with
  | intersection => exact .inl h
  | union => exact .inr (.inl h)
  | difference => exact .inr (.inr (.inl h))
  | symmetricDifference => exact .inr (.inr (.inr (.inr h)))

theorem complement_plain {P : Version → Prop} {a s : VSet} {lim : Nat} (ha : AllEnds P a.extract)
    (h : a.complement lim = .ok s) : AllEnds P s.extract := by
  intro i hi
  exact C48_ends_from_operands P a a s lim (fun i hi => ha i ((has_iff _ _).1 hi)) (fun i hi => ha i ((has_iff _ _).1 hi))
    (.inr (.inr (.inr (.inl h)))) i ((has_iff _ _).2 hi)

/-- Both ways of running give the same set with plain ends, or the same exception. -/
theorem stored_same (lim : Nat) (p : SetProgram) (hp : p.Public (lim + 2)) (hn : p.NeverEmpty (lim + 2)) :
    SameSet (p.run (lim + 2)) (do VSet.parse (lim + 2) (← p.runStored (lim + 2))) ∧
      ∀ y, (do VSet.parse (lim + 2) (← p.runStored (lim + 2))) = .ok y → AllEnds PlainEnd y.extract := by
  have read : ∀ (r : Except PyErr PyStr) (y : VSet), (do VSet.parse (lim + 2) (← r)) = .ok y → AllEnds Version.Canonical y.extract := by
    intro r y h
    cases r with
    | error e => cases h
    | ok s =>
      have h : VSet.parse (lim + 2) s = .ok y := h
      exact fun i hi => (parsed_canonical h).2 i hi
  have hloc : ∀ v w : Version, v.key = w.key → v.local_ = none → w.local_ = none := fun v w h hv => by
    rw [← ((key_eq_iff v w).1 h).2.2.2.2.2]; exact hv
  have finish : ∀ (x y z : VSet), SameSet (.ok x) (.ok y) → x ≠ .empty → AllEnds PlainEnd y.extract →
      (do VSet.parse (lim + 2) (← y.toShortStr (lim + 2))) = .ok z → SameSet (.ok x) (.ok z) ∧ AllEnds PlainEnd z.extract := by
    intro x y z h hne hy hz
    obtain ⟨z', hz', h'⟩ := stored h hne hy lim
    rw [hz'] at hz
    cases hz
    refine ⟨h', fun i hi => ?_⟩
    have c := read _ _ hz' i hi
    have l := ends_same hloc (h.symm.trans h') (fun i hi => ⟨fun v hv => ((hy i hi).1 v hv).2, fun v hv => ((hy i hi).2 v hv).2⟩) i hi
    exact ⟨fun v hv => ⟨c.1 v hv, l.1 v hv⟩, fun v hv => ⟨c.2 v hv, l.2 v hv⟩⟩
  induction p with
  | text s =>
    show SameSet (VSet.parse (lim + 2) s) (VSet.parse (lim + 2) s) ∧ ∀ y, VSet.parse (lim + 2) s = .ok y → _
    cases h : VSet.parse (lim + 2) s with
    | error e => exact ⟨rfl, fun _ h => by cases h⟩
    | ok x =>
      obtain ⟨n, c⟩ := parsed_canonical h
      refine ⟨⟨n, n, fun _ => Iff.rfl⟩, ?_⟩
      rintro y ⟨⟩ i hi
      have := hp x h i ((has_iff _ _).2 hi)
      exact ⟨fun v hv => ⟨(c i hi).1 v hv, this v (.inl hv)⟩, fun v hv => ⟨(c i hi).2 v hv, this v (.inr hv)⟩⟩
  | op o p q ihp ihq =>
    obtain ⟨sp, ep⟩ := ihp hp.1 hn.1
    obtain ⟨sq, eq⟩ := ihq hp.2 hn.2.1
    have hne := hn.2.2
    have e : (do VSet.parse (lim + 2) (← (SetProgram.op o p q).runStored (lim + 2))) =
        (do let x ← (do VSet.parse (lim + 2) (← p.runStored (lim + 2)))
            let y ← (do VSet.parse (lim + 2) (← q.runStored (lim + 2)))
            let z ← o.run (lim + 2) x y
            VSet.parse (lim + 2) (← z.toShortStr (lim + 2))) := by
      simp only [SetProgram.runStored, bind_assoc]
    rw [e]
    simp only [SetProgram.run] at hne ⊢
    generalize (do VSet.parse (lim + 2) (← p.runStored (lim + 2))) = rp at sp ep
    generalize (do VSet.parse (lim + 2) (← q.runStored (lim + 2))) = rq at sq eq
    generalize p.run (lim + 2) = xp at sp hne
    generalize q.run (lim + 2) = xq at sq hne
    cases xp with
    | error f => cases rp with
      | error g => cases sp; exact ⟨rfl, fun _ h => by cases h⟩
      | ok y => exact sp.elim
    | ok x => cases rp with
      | error g => exact sp.elim
      | ok x' => cases xq with
        | error f => cases rq with
          | error g => cases sq; exact ⟨rfl, fun _ h => by cases h⟩
          | ok y => exact sq.elim
        | ok y => cases rq with
          | error g => exact sq.elim
          | ok y' =>
            have h := o.same sp sq lim
            have hpl := fun s => o.plain (P := PlainEnd) (s := s) (lim := lim + 2) (ep x' rfl) (eq y' rfl)
            change o.run (lim + 2) x y ≠ _ at hne
            change SameSet (o.run (lim + 2) x y) (do let z ← o.run (lim + 2) x' y'; VSet.parse (lim + 2) (← z.toShortStr (lim + 2))) ∧
              ∀ y, (do let z ← o.run (lim + 2) x' y'; VSet.parse (lim + 2) (← z.toShortStr (lim + 2))) = .ok y → AllEnds PlainEnd y.extract
            generalize o.run (lim + 2) x y = u at h hne
            generalize o.run (lim + 2) x' y' = u' at h hpl
            cases u with
            | error f => cases u' with
              | error g => cases h; exact ⟨rfl, fun _ h => by cases h⟩
              | ok y => exact h.elim
            | ok s => cases u' with
              | error g => exact h.elim
              | ok s' =>
                have hs : s ≠ .empty := fun hs => hne (by rw [hs])
                obtain ⟨z, hz, -⟩ := stored h hs (hpl s' rfl) lim
                have hz' : (do let z ← (Except.ok s' : Except PyErr VSet); VSet.parse (lim + 2) (← z.toShortStr (lim + 2))) = .ok z := hz
                obtain ⟨k1, k2⟩ := finish s s' z h hs (hpl s' rfl) hz
                rw [hz']
                exact ⟨k1, by rintro _ ⟨⟩; exact k2⟩
  | complement p ihp =>
    obtain ⟨sp, ep⟩ := ihp hp hn.1
    have hne := hn.2
    have e : (do VSet.parse (lim + 2) (← (SetProgram.complement p).runStored (lim + 2))) =
        (do let x ← (do VSet.parse (lim + 2) (← p.runStored (lim + 2)))
            let z ← x.complement (lim + 2)
            VSet.parse (lim + 2) (← z.toShortStr (lim + 2))) := by
      simp only [SetProgram.runStored, bind_assoc]
    rw [e]
    simp only [SetProgram.run] at hne ⊢
    generalize (do VSet.parse (lim + 2) (← p.runStored (lim + 2))) = rp at sp ep
    generalize p.run (lim + 2) = xp at sp hne
    cases xp with
    | error f => cases rp with
      | error g => cases sp; exact ⟨rfl, fun _ h => by cases h⟩
      | ok y => exact sp.elim
    | ok x => cases rp with
      | error g => exact sp.elim
      | ok x' =>
        have h := complement_same sp (lim + 2)
        have hpl := fun s => complement_plain (P := PlainEnd) (s := s) (lim := lim + 2) (ep x' rfl)
        change x.complement (lim + 2) ≠ _ at hne
        change SameSet (x.complement (lim + 2)) (do let z ← x'.complement (lim + 2); VSet.parse (lim + 2) (← z.toShortStr (lim + 2))) ∧
          ∀ y, (do let z ← x'.complement (lim + 2); VSet.parse (lim + 2) (← z.toShortStr (lim + 2))) = .ok y → AllEnds PlainEnd y.extract
        generalize x.complement (lim + 2) = u at h hne
        generalize x'.complement (lim + 2) = u' at h hpl
        cases u with
        | error f => cases u' with
          | error g => cases h; exact ⟨rfl, fun _ h => by cases h⟩
          | ok y => exact h.elim
        | ok s => cases u' with
          | error g => exact h.elim
          | ok s' =>
            have hs : s ≠ .empty := fun hs => hne (by rw [hs])
            obtain ⟨z, hz, -⟩ := stored h hs (hpl s' rfl) lim
            have hz' : (do let z ← (Except.ok s' : Except PyErr VSet); VSet.parse (lim + 2) (← z.toShortStr (lim + 2))) = .ok z := hz
            obtain ⟨k1, k2⟩ := finish s s' z h hs (hpl s' rfl) hz
            rw [hz']
            exact ⟨k1, by rintro _ ⟨⟩; exact k2⟩

/-- C121. A program whose strings denote sets without local segments, and none of whose operations gives the empty set, can
store every result as its short string: the final string is read as a set `==` to the one computed without strings. -/
theorem C121_stored (lim : Nat) (p : SetProgram) (hp : p.Public (lim + 2)) (hn : p.NeverEmpty (lim + 2)) (x : VSet)
    (h : p.run (lim + 2) = .ok x) : ∃ s y, p.runStored (lim + 2) = .ok s ∧ VSet.parse (lim + 2) s = .ok y ∧ y.eq x = true ∧
      ∀ v, y.contains v = x.contains v := by
  have hs := (stored_same lim p hp hn).1
  rw [h] at hs
  cases hr : p.runStored (lim + 2) with
  | error e => rw [hr] at hs; exact hs.elim
  | ok s =>
    rw [hr] at hs
    change SameSet (.ok x) (VSet.parse (lim + 2) s) at hs
    cases hy : VSet.parse (lim + 2) s with
    | error e => rw [hy] at hs; exact hs.elim
    | ok y =>
      rw [hy] at hs
      exact ⟨s, y, rfl, hy, (eq_iff_cov hs.2.1 hs.1).2 fun c => (hs.2.2 c).symm, fun v => (hs.contains v).symm⟩

/-- C121. Under the same conditions a program that fails without strings fails with the same exception when it stores the
results and the last string is read. -/
theorem C121_fails (lim : Nat) (p : SetProgram) (hp : p.Public (lim + 2)) (hn : p.NeverEmpty (lim + 2)) (e : PyErr)
    (h : p.run (lim + 2) = .error e) : (do VSet.parse (lim + 2) (← p.runStored (lim + 2))) = .error e := by
  have hs := (stored_same lim p hp hn).1
  rw [h] at hs
  generalize (do VSet.parse (lim + 2) (← p.runStored (lim + 2))) = r at hs ⊢
  cases r with
  | error f => cases hs; rfl
  | ok y => exact hs.elim

/-- `(^1.2 ∪ ~3.1) - {1.4}`, with and without strings. -/
example : (SetProgram.op .difference (.op .union (.text "^1.2".toList) (.text "~3.1".toList)) (.text "==1.4".toList)).runStored 5 =
      .ok ">=1.2,<1.4||>1.4,<2.0||>=3.1,<3.2".toList ∧
    (SetProgram.op .difference (.op .union (.text "^1.2".toList) (.text "~3.1".toList)) (.text "==1.4".toList)).run 5 =
      .ok (.union [exRange (some [1, 2]) (some [1, 4]), exRange (some [1, 4]) (some [2, 0]) false, exRange (some [3, 1]) (some [3, 2])]) := by
  decide +kernel

/-- `{1} ∪ (1, ∞)` fails both ways. -/
example : (SetProgram.op .union (.text "==1".toList) (.text ">1".toList)).runStored 5 = .error .recursionError ∧
    (SetProgram.op .union (.text "==1".toList) (.text ">1".toList)).run 5 = .error .recursionError := by
  decide +kernel

/-- C121, violated for the empty set: `(< 1 ∩ > 2) ∪ > 3` does not contain 0 when computed on sets, and does when the results
are stored as strings. -/
theorem C121_violation : ∃ p x s y, p = SetProgram.op .union (.op .intersection (.text "<1".toList) (.text ">2".toList)) (.text ">3".toList) ∧
    p.Public 5 ∧ p.run 5 = .ok x ∧ p.runStored 5 = .ok s ∧ VSet.parse 5 s = .ok y ∧ x.contains (exVersion [0]) = false ∧
      y.contains (exVersion [0]) = true := by
  refine ⟨_, .item (exRange (some [3]) none false), "0||>3".toList, .union [exPoint [0], exRange (some [3]) none false], rfl, ?_, by decide +kernel,
    by decide +kernel, by decide +kernel, by decide +kernel, by decide +kernel⟩
  refine ⟨⟨?_, ?_⟩, ?_⟩
  · intro x hx
    rw [show VSet.parse 5 "<1".toList = .ok (.item (exRange none (some [1]) false)) by decide +kernel] at hx
    cases hx
    rintro i rfl v (⟨⟨⟩⟩ | ⟨⟨⟩⟩)
    rfl
  · intro x hx
    rw [show VSet.parse 5 ">2".toList = .ok (.item (exRange (some [2]) none false)) by decide +kernel] at hx
    cases hx
    rintro i rfl v (⟨⟨⟩⟩ | ⟨⟨⟩⟩)
    rfl
  · intro x hx
    rw [show VSet.parse 5 ">3".toList = .ok (.item (exRange (some [3]) none false)) by decide +kernel] at hx
    cases hx
    rintro i rfl v (⟨⟨⟩⟩ | ⟨⟨⟩⟩)
    rfl

/-- C121, violated for local segments: the string stored for the complement of `{1+a} ∪ {2}` is not read. -/
theorem C121_local : ∃ p s, p = SetProgram.complement (.text "==1+a||==2".toList) ∧ p.NeverEmpty 5 ∧ p.runStored 5 = .ok s ∧
    (∃ x, p.run 5 = .ok x) ∧ VSet.parse 5 s = .error .parseSpecificationError := by
  refine ⟨_, "<1+a||>1+a,<2||>2".toList, rfl, ⟨trivial, by decide +kernel⟩, by decide +kernel, ?_, by decide +kernel⟩
  exact ⟨.union [.range ⟨none, some (exVersion [1] none none none (some ⟨[.str "a".toList]⟩)), false, false⟩,
    .range ⟨some (exVersion [1] none none none (some ⟨[.str "a".toList]⟩)), some (exVersion [2]), false, false⟩, exRange (some [2]) none false], by decide +kernel⟩

example : (VSet.item (exPoint [1])).toShortStr 5 = .ok "1".toList ∧ VSet.parse 5 "1".toList = .ok (.item (exPoint [1])) := by decide +kernel

end Verif
