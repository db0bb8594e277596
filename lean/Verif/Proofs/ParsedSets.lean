import Verif.Proofs.CanonicalDensity
import Verif.Props.SpecGrammar
/-!
# Sets that come from strings have ends that strings can denote
-/

namespace Verif
open Specifier

theorem nonneg_of_part {r : Release} (h : ∀ j, 0 ≤ r.part j) : r.NonNeg := by
  intro x hx
  obtain ⟨i, hi, rfl⟩ := List.mem_iff_getElem.1 hx
  have := h i
  rwa [Release.part, List.getD_eq_getElem?_getD, List.getElem?_eq_getElem hi] at this

theorem Bumped.canonical {i : Nat} {v w : Version} (h : Bumped i v w) (hv : v.Canonical) : w.Canonical := by
  obtain ⟨f1, f2, f3, f4⟩ := h.final
  refine ⟨h.valid, ?_, nonneg_of_part fun j => ?_, by simp [f1], by simp [f2], by simp [f3], by simp [f4]⟩
  · rw [h.numbers.1]; exact hv.epoch
  · rw [h.numbers.2]
    have := part_nonneg hv.release j
    have := part_nonneg hv.release i
    split
    · assumption
    · split <;> omega

theorem Dropped.canonical {v w : Version} (h : Dropped v w) (hv : v.Canonical) : w.Canonical := by
  obtain ⟨f1, f2, f3, f4⟩ := h.final
  refine ⟨h.valid, ?_, ?_, by simp [f1], by simp [f2], by simp [f3], by simp [f4]⟩
  · rw [h.epoch]; exact hv.epoch
  · rw [h.release]; exact hv.release

theorem caret_canonical {v w : Version} (hv : v.Canonical) (h : v.nextCaretBreaking = .ok w) : w.Canonical := by
  obtain ⟨w', h1, h2, h3, h4⟩ := caret_spec hv.valid
  rw [h1] at h; cases h
  cases hs : v.isStable with
  | true => obtain ⟨i, -, hi⟩ := h2 hs; exact hi.canonical hv
  | false =>
    by_cases h0 : v.release.part 0 = 0
    · exact (h4 hs h0).canonical hv
    · exact (h3 hs h0).canonical hv

theorem tilde_canonical {v w : Version} (hv : v.Canonical) (h : v.nextTildeBreaking = .ok w) : w.Canonical := by
  obtain ⟨w', h1, h2, h3⟩ := tilde_spec hv.valid
  rw [h1] at h; cases h
  cases hs : v.isStable with
  | true => exact (h2 hs).canonical hv
  | false => exact (h3 hs).canonical hv

theorem tildeEqual_canonical {v w : Version} (hv : v.Canonical) (h : v.nextTildeEqualBreaking = .ok w) : w.Canonical := by
  obtain ⟨h1, h2⟩ := tildeEqual_spec hv.valid
  have hpos : 0 < v.release.precision := (precision_pos_iff _).2 hv.valid.release
  by_cases hp : v.release.precision = 1
  · rw [h1 hp] at h; cases h
  · obtain ⟨w', h3, h4⟩ := h2 (by omega)
    rw [h3] at h; cases h
    exact h4.canonical hv

theorem wildcard_canonical {v w : Version} (hv : v.Canonical) (h : v.nextWildcardBreaking = .ok (some w)) : w.Canonical := by
  rcases wildcard_upper hv.valid with h1 | ⟨w', h1, ⟨i, h2⟩ | h2⟩ <;> rw [h1] at h <;> cases h
  · exact h2.canonical hv
  · exact h2.canonical hv

/-- Every operator of the specifier is on a version that a string can denote. -/
inductive Specifier.Canonical : Specifier → Prop
  | never : Canonical .never
  | always : Canonical .always
  | one {o : Operator} : o.version.Canonical → Canonical (.one o)
  | any {l : List Specifier} : (∀ s ∈ l, s.Canonical) → Canonical (.any l)
  | all {l : List Specifier} : (∀ s ∈ l, s.Canonical) → Canonical (.all l)

theorem ends_of_mkRange {P : Version → Prop} {mn mx : Option Version} {a b : Bool} {x : VSet}
    (h : (do .ok (VSet.item (← Item.mkRange mn mx a b)) : Except PyErr VSet) = .ok x)
    (h1 : ∀ v, mn = some v → P v) (h2 : ∀ v, mx = some v → P v) : AllEnds P x.extract := by
  cases hm : Item.mkRange mn mx a b with
  | error e => rw [hm] at h; cases h
  | ok i =>
    rw [hm] at h
    cases h
    exact allEnds_cons.2 ⟨ends_mkRange hm h1 h2, allEnds_nil⟩

theorem translateWildcard_ends {v : Version} (hv : v.Canonical) {x : VSet} (h : v.translateWildcardEqual = .ok x) :
    AllEnds Version.Canonical x.extract := by
  unfold Version.translateWildcardEqual at h
  cases hw : v.nextWildcardBreaking with
  | error e => rw [hw] at h; cases h
  | ok o =>
    rw [hw] at h
    cases o with
    | none => exact ends_of_mkRange (mn := none) (mx := none) (a := false) (b := false) h (by simp) (by simp)
    | some w => exact ends_of_mkRange h (by rintro _ ⟨⟩; exact hv) (by rintro _ ⟨⟩; exact wildcard_canonical hv hw)

theorem Operator.toSet_ends {lim : Nat} {o : Operator} (hv : o.version.Canonical) {x : VSet} (h : o.toSet lim = .ok x) :
    AllEnds Version.Canonical x.extract := by
  obtain ⟨t, v⟩ := o
  have range : ∀ {f : Version → Except PyErr Version}, (∀ w, f v = .ok w → w.Canonical) →
      (do .ok (VSet.item (← Item.mkRange (some v) (some (← f v)) true false)) : Except PyErr VSet) = .ok x →
      AllEnds Version.Canonical x.extract := by
    intro f hf h
    cases hw : f v with
    | error e => rw [hw] at h; cases h
    | ok w =>
      rw [hw] at h
      exact ends_of_mkRange h (by rintro _ ⟨⟩; exact hv) (by rintro _ ⟨⟩; exact hf _ hw)
  have point : AllEnds Version.Canonical (VSet.item (.point v)).extract := allEnds_cons.2 ⟨ends_point.2 hv, allEnds_nil⟩
  cases t
  case tildeEqual => exact range (fun _ => tildeEqual_canonical hv) h
  case caret => exact range (fun _ => caret_canonical hv) h
  case tilde => exact range (fun _ => tilde_canonical hv) h
  case doubleEqual => cases h; exact point
  case equal => cases h; exact point
  case less => exact ends_of_mkRange h (by simp) (by rintro _ ⟨⟩; exact hv)
  case lessOrEqual => exact ends_of_mkRange h (by simp) (by rintro _ ⟨⟩; exact hv)
  case greater => exact ends_of_mkRange h (by rintro _ ⟨⟩; exact hv) (by simp)
  case greaterOrEqual => exact ends_of_mkRange h (by rintro _ ⟨⟩; exact hv) (by simp)
  case wildcardDoubleEqual => exact translateWildcard_ends hv h
  case wildcardEqual => exact translateWildcard_ends hv h
  case notEqual =>
    have h' : Version.translateNotEqual lim v = .ok x := h
    unfold Version.translateNotEqual at h'
    cases hc : (Version.translateEqual v).complement lim with
    | error e => rw [hc] at h'; cases h'
    | ok c =>
      rw [hc] at h'
      have := complement_ends point hc
      cases c <;> cases h'
      exact this
  case wildcardNotEqual =>
    have h' : Version.translateWildcardNotEqual lim v = .ok x := h
    unfold Version.translateWildcardNotEqual at h'
    cases hw : v.translateWildcardEqual with
    | error e => rw [hw] at h'; cases h'
    | ok w =>
      cases hc : w.complement lim with
      | error e => simp only [hw, hc, bind, Except.bind] at h'; cases h'
      | ok c =>
        have := complement_ends (translateWildcard_ends hv hw) hc
        simp only [hw, hc, bind, Except.bind] at h'
        cases c <;> cases h'
        · exact this
        · exact this

theorem reduceAll_ends {lim : Nat} {P : Version → Prop} {l : List Specifier} : ∀ {acc x : VSet}, AllEnds P acc.extract →
    (∀ s ∈ l, ∀ y, toSet lim s = .ok y → AllEnds P y.extract) → reduceAll lim acc l = .ok x → AllEnds P x.extract := by
  induction l with
  | nil => intro acc x ha _ h; simp only [reduceAll, Except.ok.injEq] at h; rw [← h]; exact ha
  | cons s l ih =>
    intro acc x ha hl h
    simp only [reduceAll, bind, Except.bind] at h
    cases hy : toSet lim s with
    | error e => rw [hy] at h; cases h
    | ok y =>
      rw [hy] at h
      cases hz : acc.intersection lim y with
      | error e => simp only [hz] at h; cases h
      | ok z =>
        simp only [hz] at h
        exact ih (intersection_ends ha (hl s (by simp) y hy) hz) (fun t ht => hl t (by simp [ht])) h

theorem reduceAny_ends {lim : Nat} {P : Version → Prop} {l : List Specifier} : ∀ {acc x : VSet}, AllEnds P acc.extract →
    (∀ s ∈ l, ∀ y, toSet lim s = .ok y → AllEnds P y.extract) → reduceAny lim acc l = .ok x → AllEnds P x.extract := by
  induction l with
  | nil => intro acc x ha _ h; simp only [reduceAny, Except.ok.injEq] at h; rw [← h]; exact ha
  | cons s l ih =>
    intro acc x ha hl h
    simp only [reduceAny, bind, Except.bind] at h
    cases hy : toSet lim s with
    | error e => rw [hy] at h; cases h
    | ok y =>
      rw [hy] at h
      cases hz : acc.unionWith lim y with
      | error e => simp only [hz] at h; cases h
      | ok z =>
        simp only [hz] at h
        exact ih (unionWith_ends ha (hl s (by simp) y hy) hz) (fun t ht => hl t (by simp [ht])) h

theorem Specifier.toSet_ends {lim : Nat} {s : Specifier} (hs : s.Canonical) :
    ∀ x, toSet lim s = .ok x → AllEnds Version.Canonical x.extract := by
  induction hs with
  | never => intro x h; simp only [toSet, Except.ok.injEq] at h; rw [← h]; exact allEnds_nil
  | always => intro x h; simp only [toSet, Except.ok.injEq] at h; rw [← h]; exact universal_ends
  | one ho => intro x h; simp only [toSet] at h; exact Operator.toSet_ends ho h
  | @any l hl ih =>
    intro x h
    cases l with
    | nil => simp only [toSet] at h; cases h
    | cons s l =>
      simp only [toSet, bind, Except.bind] at h
      cases hy : toSet lim s with
      | error e => rw [hy] at h; cases h
      | ok y =>
        rw [hy] at h
        exact reduceAny_ends (ih s (by simp) y hy) (fun t ht => ih t (by simp [ht])) h
  | @all l hl ih =>
    intro x h
    cases l with
    | nil => simp only [toSet] at h; cases h
    | cons s l =>
      simp only [toSet, bind, Except.bind] at h
      cases hy : toSet lim s with
      | error e => rw [hy] at h; cases h
      | ok y =>
        rw [hy] at h
        exact reduceAll_ends (ih s (by simp) y hy) (fun t ht => ih t (by simp [ht])) h

theorem ofAll_canonical {s : PyStr} {ops : List Operator} (h : AllOf s ops) : (ofAll ops).Canonical := by
  obtain ⟨a, l, -, h⟩ := h
  have hv : ∀ op ∈ ops, (Specifier.one op).Canonical := fun op ho => by
    obtain ⟨w, -, hw⟩ := forall₂_right h ho
    exact .one (single_valid hw).2
  match ops, h, hv with
  | [o], _, hv => exact hv o (by simp)
  | o :: o' :: l, _, hv =>
    refine .all ?_
    intro s hs
    obtain ⟨op, ho, rfl⟩ := List.mem_map.1 hs
    exact hv op ho

theorem ofAny_canonical {s : PyStr} {gs : List (List Operator)} (h : AnyOf s gs) : (ofAny gs).Canonical := by
  obtain ⟨a, l, -, h⟩ := h
  have hv : ∀ g ∈ gs, (ofAll g).Canonical := fun g hg => by
    obtain ⟨w, -, hw⟩ := forall₂_right h hg
    exact ofAll_canonical hw
  match gs, h, hv with
  | [o], _, hv => exact hv o (by simp)
  | o :: o' :: l, _, hv =>
    refine .any ?_
    intro s hs
    obtain ⟨op, ho, rfl⟩ := List.mem_map.1 hs
    exact hv op ho

/-- The set of a string is in normal form and has ends that strings can denote. -/
theorem parsed_canonical {lim : Nat} {s : PyStr} {x : VSet} (h : VSet.parse lim s = .ok x) :
    x.Normal ∧ ∀ i ∈ x.extract, i.Canonical := by
  unfold VSet.parse at h
  cases hp : Specifier.parse s with
  | error e => rw [hp] at h; cases h
  | ok p =>
    rw [hp] at h
    obtain ⟨gs, hg, rfl⟩ := (Specifier.parse_ok_iff' s p).1 hp
    exact ⟨(toSet_means (ofAny_valid hg) lim x h).1, Specifier.toSet_ends (ofAny_canonical hg) x h⟩

end Verif
