import Verif.Model.Protocols
import Verif.Props.Specifiers
/-!
# Properties of specifications, guards and `Version.matches` (C85)
-/

namespace Verif
open scoped Verif

theorem cut_of_key {v w : Version} (h : v.key = w.key) : cut v = cut w := by
  simp only [cut, cutAt, h]

theorem contains_respects (x : VSet) {v w : Version} (h : v ==ₚ w) : x.contains v = x.contains w := by
  have hk : v.key = w.key := (veq_iff v w).mp h
  have hc := cut_of_key hk
  rw [Bool.eq_iff_iff, vset_contains_iff_mem, vset_contains_iff_mem]
  cases x with
  | empty => simp [VSet.Mem]
  | item i => simp only [VSet.Mem, mem_iff_cut, hc]
  | union l => simp only [VSet.Mem, mem_iff_cut, hc]

namespace Specifier

theorem accepts_respects {s : Specifier} (hs : s.Valid) {v w : Version} (h : v ==ₚ w) : s.accepts v = s.accepts w := by
  induction hs with
  | never => rfl
  | always => rfl
  | one hv ht =>
    rcases op_view hv ht with ⟨s, -, -, hs⟩ | ⟨-, hs⟩
    · simp only [accepts, hs, contains_respects s h]
    · simp only [accepts, hs]
  | @any l h1 h2 ih =>
    clear h1 h2
    simp only [accepts]
    induction l with
    | nil => simp [anyAccepts]
    | cons s l ihl => simp [anyAccepts, ih s (by simp), ihl (fun t ht => ih t (by simp [ht]))]
  | @all l h1 h2 ih =>
    clear h1 h2
    simp only [accepts]
    induction l with
    | nil => simp [allAccepts]
    | cons s l ihl => simp [allAccepts, ih s (by simp), ihl (fun t ht => ih t (by simp [ht]))]

end Specifier

/-- C85. Versions that compare equal match the same specifiers and the same sets, and matching returns. -/
theorem C85_equal (v w : Version) (h : v ==ₚ w) :
    (∀ s : Specifier, s.Valid → ∃ b, v.matches_ (.specifier s) = .ok b ∧ w.matches_ (.specifier s) = .ok b) ∧
      ∀ x : VSet, ∃ b, v.matches_ (.set x) = .ok b ∧ w.matches_ (.set x) = .ok b := by
  refine ⟨fun s hs => ?_, fun x => ⟨_, rfl, ?_⟩⟩
  · obtain ⟨b, hb⟩ := Specifier.accepts_total hs v
    exact ⟨b, hb, (Specifier.accepts_respects hs h).symm.trans hb⟩
  · simp only [Version.matches_, Value.accepts, VSet.accepts, contains_respects x h]

/-- `1.2` and `1.2.0` are different values that compare equal; both match `^1.2 || == 3`. -/
example : exVersion [1, 2] ≠ exVersion [1, 2, 0] ∧ exVersion [1, 2] ==ₚ exVersion [1, 2, 0] ∧
    (exVersion [1, 2]).matches_ (.specifier exAny) = .ok true ∧
    (exVersion [1, 2, 0]).matches_ (.specifier exAny) = .ok true ∧
    (exVersion [2, 0]).matches_ (.specifier exAny) = .ok false := by
  decide +kernel

/-- C85. A specification may be replaced by its conversion: a version matches a specifier exactly if it matches the set
that the specifier converts to, and matches a set in normal form exactly if it matches the specifier that the set
converts to. -/
theorem C85_conversions :
    (∀ s : Specifier, s.Valid → ∀ (lim : Nat) (x : VSet), Value.toSet lim (.specifier s) = .ok x →
      ∀ v : Version, v.matches_ (.specifier s) = v.matches_ (.set x)) ∧
    ∀ x : VSet, x.Normal → ∃ s, (∀ lim, Value.fromSet lim (.set x) = .ok s) ∧
      ∀ v : Version, v.matches_ (.set x) = v.matches_ (.specifier s) := by
  refine ⟨fun s hs lim x h v => (Specifier.toSet_means hs lim x h).2 v, fun x hx => ?_⟩
  obtain ⟨t, ht, hacc, -⟩ := C33_round_trip x hx
  refine ⟨t, ht, fun v => ?_⟩
  obtain ⟨b, hb, hm⟩ := hacc v
  simp only [Version.matches_, Value.accepts, VSet.accepts, hb, Except.ok.injEq]
  rw [Bool.eq_iff_iff, vset_contains_iff_mem, hm]

example : Value.toSet 2 (.specifier exAny) = .ok (.union [exRange (some [1, 2]) (some [2, 0]), exPoint [3]]) ∧
    (exVersion [1, 5]).matches_ (.set (.union [exRange (some [1, 2]) (some [2, 0]), exPoint [3]])) = .ok true ∧
    (exVersion [1, 5]).matches_ (.specifier exAny) = .ok true := by
  decide +kernel

/-- C85. The guards tell the kinds of values apart: each specifier passes exactly one of the five guards of specifiers and
each set exactly one of the guards for empty sets, ranges and unions; points are ranges and ranges are what `is_version_item`
accepts; what passes `is_specification` is a specifier or a set, never both. -/
theorem C85_guards (x : Value) :
    (x.isSpecifier = true ↔ ∃ s, x = .specifier s) ∧
    [x.isSpecifierNever, x.isSpecifierAlways, x.isSpecifierOne, x.isSpecifierAny, x.isSpecifierAll].count true =
      (if x.isSpecifier then 1 else 0) ∧
    (x.isVersionSet = true ↔ ∃ y, x = .set y) ∧
    [x.isVersionEmpty, x.isVersionRange, x.isVersionUnion].count true = (if x.isVersionSet then 1 else 0) ∧
    (x.isVersionPoint = true → x.isVersionRange = true) ∧ (x.isVersionPoint = true ↔ ∃ v, x = .set (.item (.point v))) ∧
    (x.isVersionEmpty = true ↔ x = .set .empty) ∧ (x.isVersionUnion = true ↔ ∃ l, x = .set (.union l)) ∧
    (x.isSpecifierNever = true ↔ x = .specifier .never) ∧ (x.isSpecifierAlways = true ↔ x = .specifier .always) ∧
    (x.isSpecifierOne = true ↔ ∃ o, x = .specifier (.one o)) ∧ (x.isSpecifierAny = true ↔ ∃ l, x = .specifier (.any l)) ∧
    (x.isSpecifierAll = true ↔ ∃ l, x = .specifier (.all l)) ∧
    x.isVersionItem = x.isVersionRange ∧
    (x.isSpecification = true ↔ (x.isSpecifier = true ∨ x.isVersionSet = true)) ∧
    ¬ (x.isSpecifier = true ∧ x.isVersionSet = true) := by
  rcases x with (_ | _ | _ | _ | _) | (_ | (_ | _) | _) | _ | _ <;>
    simp [Value.isSpecifier, Value.isSpecifierNever, Value.isSpecifierAlways, Value.isSpecifierOne, Value.isSpecifierAny,
      Value.isSpecifierAll, Value.isVersionEmpty, Value.isVersionPoint, Value.isVersionRange, Value.isVersionUnion,
      Value.isVersionItem, Value.isVersionSet, Value.isSpecification]

example : (Value.set (.item (exPoint [3]))).isVersionPoint = true ∧ (Value.set (.item (exPoint [3]))).isVersionRange = true ∧
    (Value.specifier exAny).isSpecifierAny = true ∧ (Value.specifier exAny).isSpecifierAll = false ∧
    (Value.version (exVersion [3])).isSpecification = false := by
  decide +kernel

/-- C85. Matching and the converters accept what the guards announce: `matches` raises `AttributeError` exactly on what is
no specification, given valid specifiers, and each converter raises `TypeError` on values of the other kinds, specifications
or not. -/
theorem C85_kinds (x : Value) (hx : ∀ s, x = .specifier s → s.Valid) :
    (∀ v : Version, (x.isSpecification = true → ∃ b, v.matches_ x = .ok b) ∧
      (x.isSpecification = false → v.matches_ x = .error .attributeError)) ∧
    (∀ lim, x.isSpecifier = false → x.toSet lim = .error .typeError) ∧
    ∀ lim, x.isVersionSet = false → x.fromSet lim = .error .typeError := by
  rcases x with s | y | w | _
  · refine ⟨fun v => ⟨fun _ => Specifier.accepts_total (hx s rfl) v, by simp [Value.isSpecification]⟩,
      by simp [Value.isSpecifier], fun _ _ => rfl⟩
  · refine ⟨fun v => ⟨fun _ => ⟨_, rfl⟩, by simp [Value.isSpecification]⟩, fun _ _ => rfl, ?_⟩
    rcases y with _ | (_ | _) | _ <;>
      simp [Value.isVersionSet, Value.isVersionEmpty, Value.isVersionPoint, Value.isVersionRange, Value.isVersionUnion]
  · exact ⟨fun v => ⟨by simp [Value.isSpecification], fun _ => rfl⟩, fun _ _ => rfl, fun _ _ => rfl⟩
  · exact ⟨fun v => ⟨by simp [Value.isSpecification], fun _ => rfl⟩, fun _ _ => rfl, fun _ _ => rfl⟩

example : (exVersion [1]).matches_ (.version (exVersion [1])) = .error .attributeError ∧
    Value.toSet 2 (.set .empty) = .error .typeError ∧ Value.fromSet 2 (.specifier .never) = .error .typeError ∧
    Value.fromSet 2 (.set .empty) = .ok .never := by
  exact ⟨rfl, rfl, rfl, rfl⟩

end Verif
