import Verif.Model.OperatorTypes
import Verif.Props.Operators
import Verif.Props.Sets
/-!
# C82: operator types
-/

namespace Verif

/-- What an operator type holds in common with those that are equal to it: the symbol without wildcard, and whether there
is one. `=` and `==` are the same symbol. -/
def OpType.symbol (t : OpType) : String × Bool := match t with
  | tildeEqual => ("~=", false) | doubleEqual => ("==", false) | notEqual => ("!=", false) | less => ("<", false)
  | lessOrEqual => ("<=", false) | greater => (">", false) | greaterOrEqual => (">=", false) | caret => ("^", false)
  | equal => ("==", false) | tilde => ("~", false) | wildcardDoubleEqual => ("==", true) | wildcardEqual => ("==", true)
  | wildcardNotEqual => ("!=", true)

/-- The thirteen predicates. -/
def OpType.predicates : List (OpType → Bool) :=
  [isTildeEqual, isDoubleEqual, isNotEqual, isLess, isLessOrEqual, isGreater, isGreaterOrEqual, isCaret, isEqual, isTilde,
    isWildcardDoubleEqual, isWildcardEqual, isWildcardNotEqual]

/-- The thirteen predicates of operators. -/
def Operator.predicates : List (Operator → Bool) :=
  [isTildeEqual, isDoubleEqual, isNotEqual, isLess, isLessOrEqual, isGreater, isGreaterOrEqual, isCaret, isEqual, isTilde,
    isWildcardDoubleEqual, isWildcardEqual, isWildcardNotEqual]

/-- The thirteen constructors. -/
def Operator.constructors : List (Version → Except PyErr Operator) :=
  [tildeEqual, doubleEqual, notEqual, less, lessOrEqual, greater, greaterOrEqual, caret, equal, tilde,
    wildcardDoubleEqual, wildcardEqual, wildcardNotEqual]

theorem lastIndex_zero {v : Version} (hv : v.Valid) : v.lastIndex = 0 ↔ v.release.precision = 1 := by
  have : 0 < v.release.precision := (precision_pos_iff _).2 hv.release
  unfold Version.lastIndex Release.lastIndex
  omega

/-- C82. The operator built by the k-th constructor has the given version and satisfies the k-th predicate and no other.
Only `~=` can fail: with `ValueError`, for versions with a single release part. -/
theorem C82_constructors (k : Nat) (hk : k < 13) (v : Version) (hv : v.Valid) :
    ∃ c, Operator.constructors[k]? = some c ∧
    (c v = .error .valueError ↔ k = 0 ∧ v.release.precision = 1) ∧
    ((∃ o, c v = .ok o) ↔ ¬ (k = 0 ∧ v.release.precision = 1)) ∧
    ∀ o, c v = .ok o → o.version = v ∧
      ∀ j, ∀ p, Operator.predicates[j]? = some p → (p o = true ↔ j = k) := by
  have e1 : Operator.constructors = OpType.members.map Operator.create := rfl
  have e2 : Operator.predicates = OpType.members.map (fun t o => decide (o.type = t)) := rfl
  have hlen : OpType.members.length = 13 := rfl
  have hnd : OpType.members.Nodup := by decide
  obtain ⟨t, ht⟩ : ∃ t, OpType.members[k]? = some t := ⟨_, List.getElem?_eq_getElem (by omega)⟩
  have h0 : t = .tildeEqual ↔ k = 0 := by
    have e : OpType.members[0]? = some .tildeEqual := rfl
    constructor
    · rintro rfl
      exact (List.getElem?_inj (i := k) (by omega) hnd).1 (ht.trans e.symm)
    · rintro rfl
      rw [ht] at e; exact Option.some.inj e
  refine ⟨Operator.create t, by rw [e1, List.getElem?_map, ht]; rfl, ?_, ?_, ?_⟩
  · unfold Operator.create
    simp only [lastIndex_zero hv, h0]
    by_cases h : k = 0 ∧ v.release.precision = 1 <;> simp [h]
  · unfold Operator.create
    simp only [lastIndex_zero hv, h0]
    by_cases h : k = 0 ∧ v.release.precision = 1 <;> simp [h]
  · intro o ho
    have : o = ⟨t, v⟩ := by
      unfold Operator.create at ho
      split at ho
      · cases ho
      · exact (Except.ok.inj ho).symm
    subst this
    refine ⟨rfl, fun j p hp => ?_⟩
    rw [e2, List.getElem?_map] at hp
    obtain ⟨u, hu, rfl⟩ := Option.map_eq_some_iff.1 hp
    simp only [decide_eq_true_eq]
    constructor
    · rintro rfl
      have hj : j < OpType.members.length := by
        by_contra hc
        rw [List.getElem?_eq_none (by omega)] at hu
        cases hu
      exact (List.getElem?_inj hj hnd).1 (hu.trans ht.symm)
    · rintro rfl
      exact Option.some.inj (ht.symm.trans hu)

example : Operator.tildeEqual (exVersion [1]) = .error .valueError ∧ Operator.tildeEqual (exVersion [1, 0]) = .ok ⟨.tildeEqual, exVersion [1, 0]⟩ ∧
    Operator.predicates.map (fun p => p ⟨.caret, exVersion [1]⟩) =
      [false, false, false, false, false, false, false, true, false, false, false, false, false] := by decide +kernel

/-- C82. `is_unary` holds for `^` and `~`, `is_wildcard` for the three wildcard types. -/
theorem C82_classes (o : Operator) :
    (o.isUnary = true ↔ o.isCaret = true ∨ o.isTilde = true) ∧
    (o.isWildcard = true ↔ o.isWildcardDoubleEqual = true ∨ o.isWildcardEqual = true ∨ o.isWildcardNotEqual = true) := by
  obtain ⟨t, v⟩ := o
  cases t <;> simp [Operator.isUnary, Operator.isCaret, Operator.isTilde, Operator.isWildcard, Operator.isWildcardDoubleEqual,
    Operator.isWildcardEqual, Operator.isWildcardNotEqual, OpType.isUnary, OpType.isCaret, OpType.isTilde, OpType.isWildcard,
    OpType.isWildcardDoubleEqual, OpType.isWildcardEqual, OpType.isWildcardNotEqual]

example : (⟨.tilde, exVersion [1]⟩ : Operator).isUnary = true ∧ (⟨.tildeEqual, exVersion [1, 0]⟩ : Operator).isUnary = false := by decide

/-- Pairs of versions that tell the types apart. -/
def opSamples : List (Version × Version) :=
  [exVersion [1], exVersion [1, 2, 3], exVersion [1, 2, 4], exVersion [1, 2, 2], exVersion [1, 3], exVersion [1, 9], exVersion [2], exVersion [1, 2]].flatMap
    fun v => [exVersion [1], exVersion [1, 2], exVersion [1, 2, 3], exVersion [1, 2] (some rcTag)].map (v, ·)

theorem opSamples_valid : ∀ s ∈ opSamples, s.1.Valid ∧ s.2.Valid := by decide +kernel
theorem opSamples_separate : ∀ a ∈ OpType.members, ∀ b ∈ OpType.members, a.symbol ≠ b.symbol →
    ∃ s ∈ opSamples, a.matches_ s.1 s.2 ≠ b.matches_ s.1 s.2 := by decide +kernel
theorem opType_mem (t : OpType) : t ∈ OpType.members := by cases t <;> decide
theorem opType_eq (a b : OpType) : a.eq b = true ↔ a.symbol = b.symbol := by cases a <;> cases b <;> decide

/-- C82. Two operator types are equal exactly if they have the same symbol, and exactly if they match the same versions against
all versions. -/
theorem C82_equal (a b : OpType) :
    (a.eq b = true ↔ a.symbol = b.symbol) ∧
    (a.eq b = true ↔ ∀ v w : Version, v.Valid → w.Valid → a.matches_ v w = b.matches_ v w) ∧
    (a.eq b = true → ∀ lim v, a.translate lim v = b.translate lim v) := by
  refine ⟨opType_eq a b, ⟨fun h => ?_, fun h => ?_⟩, fun h => ?_⟩
  · rw [opType_eq] at h
    cases a <;> cases b <;> first | (intro v w _ _; rfl) | (exact absurd h (by decide))
  · by_contra hc
    rw [opType_eq] at hc
    obtain ⟨s, hs, hne⟩ := opSamples_separate a (opType_mem a) b (opType_mem b) hc
    exact hne (h _ _ (opSamples_valid s hs).1 (opSamples_valid s hs).2)
  · rw [opType_eq] at h
    cases a <;> cases b <;> first | (intro lim v; rfl) | (exact absurd h (by decide))

example : OpType.equal.eq .doubleEqual = true ∧ OpType.equal.eq .wildcardEqual = false ∧ OpType.tilde.eq .tildeEqual = false ∧
    OpType.tilde.matches_ (exVersion [1, 9]) (exVersion [1, 2]) = .ok false ∧ OpType.tildeEqual.matches_ (exVersion [1, 9]) (exVersion [1, 2]) = .ok true := by
  decide +kernel

/-- C82. `string` is the symbol as it is written; value and type determine each other. -/
theorem C82_string (a b : OpType) :
    (a.string = b.string ↔ a = b ∨ (a.isWildcard ≠ b.isWildcard ∧ a.value ++ ['*'] = b.value) ∨
      (a.isWildcard ≠ b.isWildcard ∧ b.value ++ ['*'] = a.value)) ∧
    OpType.ofValue a.value = .ok a ∧ (a.value = b.value ↔ a = b) := by
  cases a <;> cases b <;> decide +kernel

example : OpType.wildcardNotEqual.string = "!=".toList ∧ OpType.wildcardNotEqual.value = "!=*".toList := by decide +kernel

end Verif
