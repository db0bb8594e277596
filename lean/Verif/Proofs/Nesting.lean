import Verif.Model.Nesting
import Verif.Spec.Nesting
import Verif.Spec.Simplify
import Verif.Spec.SpecifierText
import Mathlib.Tactic.Common
/-!
# Lemmas on methods of specifiers under a limit on nested calls
-/

namespace Verif.Specifier

theorem depthAll_le {l : List Specifier} {n : Nat} : depthAll l ≤ n ↔ ∀ s ∈ l, s.depth ≤ n := by
  induction l with
  | nil => simp [depthAll]
  | cons a l ih => simp [depthAll, ih]

theorem depth_pos (s : Specifier) : 1 ≤ s.depth := by cases s <;> simp [depth]

theorem anyCalls_eq {f : Specifier → Except PyErr Bool} {v : Version} : ∀ {l : List Specifier},
    (∀ s ∈ l, f s = accepts s v) → anyCalls f l = anyAccepts l v
  | [], _ => by simp [anyCalls, anyAccepts]
  | a :: l, h => by
    rw [anyCalls, anyAccepts, h a (by simp), anyCalls_eq fun s hs => h s (by simp [hs])]

theorem allCalls_eq {f : Specifier → Except PyErr Bool} {v : Version} : ∀ {l : List Specifier},
    (∀ s ∈ l, f s = accepts s v) → allCalls f l = allAccepts l v
  | [], _ => by simp [allCalls, allAccepts]
  | a :: l, h => by
    rw [allCalls, allAccepts, h a (by simp), allCalls_eq fun s hs => h s (by simp [hs])]

theorem anyCalls_or {f : Specifier → Except PyErr Bool} {v : Version} : ∀ {l : List Specifier},
    (∀ s ∈ l, f s = accepts s v ∨ f s = .error .recursionError) →
      anyCalls f l = anyAccepts l v ∨ anyCalls f l = .error .recursionError
  | [], _ => by simp [anyCalls, anyAccepts]
  | a :: l, h => by
    rw [anyCalls, anyAccepts]
    rcases h a (by simp) with e | e
    · rw [e]
      rcases accepts a v with e | b
      · exact .inl rfl
      · cases b
        · exact anyCalls_or fun s hs => h s (by simp [hs])
        · exact .inl rfl
    · rw [e]; exact .inr rfl

theorem allCalls_or {f : Specifier → Except PyErr Bool} {v : Version} : ∀ {l : List Specifier},
    (∀ s ∈ l, f s = accepts s v ∨ f s = .error .recursionError) →
      allCalls f l = allAccepts l v ∨ allCalls f l = .error .recursionError
  | [], _ => by simp [allCalls, allAccepts]
  | a :: l, h => by
    rw [allCalls, allAccepts]
    rcases h a (by simp) with e | e
    · rw [e]
      rcases accepts a v with e | b
      · exact .inl rfl
      · cases b
        · exact .inl rfl
        · exact allCalls_or fun s hs => h s (by simp [hs])
    · rw [e]; exact .inr rfl

theorem acceptsIn_eq (v : Version) : ∀ (n : Nat) (s : Specifier), s.depth ≤ n → acceptsIn n s v = accepts s v
  | 0, s, h => absurd (depth_pos s) (by omega)
  | n + 1, .never, _ => by simp [acceptsIn, accepts]
  | n + 1, .always, _ => by simp [acceptsIn, accepts]
  | n + 1, .one o, _ => by simp [acceptsIn, accepts]
  | n + 1, .any l, h => by
    rw [acceptsIn, accepts]
    exact anyCalls_eq fun s hs => acceptsIn_eq v n s (depthAll_le.1 (by simpa [depth] using h) s hs)
  | n + 1, .all l, h => by
    rw [acceptsIn, accepts]
    exact allCalls_eq fun s hs => acceptsIn_eq v n s (depthAll_le.1 (by simpa [depth] using h) s hs)

theorem acceptsIn_or (v : Version) : ∀ (n : Nat) (s : Specifier), acceptsIn n s v = accepts s v ∨ acceptsIn n s v = .error .recursionError
  | 0, s => by simp [acceptsIn]
  | n + 1, .never => by simp [acceptsIn, accepts]
  | n + 1, .always => by simp [acceptsIn, accepts]
  | n + 1, .one o => by simp [acceptsIn, accepts]
  | n + 1, .any l => by
    rw [acceptsIn, accepts]
    exact anyCalls_or fun s _ => acceptsIn_or v n s
  | n + 1, .all l => by
    rw [acceptsIn, accepts]
    exact allCalls_or fun s _ => acceptsIn_or v n s

/-- A list of calls that all either return or run out of calls. -/
theorem eachCall_eq {α : Type} {f : Specifier → Except PyErr α} {g : Specifier → α} {n : Nat}
    (h : ∀ s, f s = if s.depth ≤ n then .ok (g s) else .error .recursionError) : ∀ l : List Specifier,
    eachCall f l = if depthAll l ≤ n then .ok (l.map g) else .error .recursionError
  | [] => by simp [eachCall, depthAll]
  | a :: l => by
    rw [eachCall, h a, eachCall_eq h l]
    by_cases h1 : a.depth ≤ n <;> by_cases h2 : depthAll l ≤ n <;> simp [h1, h2, depthAll, bind, Except.bind]

theorem toStrs_eq : ∀ l : List Specifier, toStrs l = l.map toStr
  | [] => by simp [toStrs]
  | a :: l => by simp [toStrs, toStrs_eq l]

theorem toShortStrs_eq : ∀ l : List Specifier, toShortStrs l = l.map toShortStr
  | [] => by simp [toShortStrs]
  | a :: l => by simp [toShortStrs, toShortStrs_eq l]

theorem hashes_eq (H : Hasher) : ∀ l : List Specifier, H.specifiers l = l.map H.specifier
  | [] => by simp [Hasher.specifiers]
  | a :: l => by simp [Hasher.specifiers, hashes_eq H l]

theorem toStrIn_eq : ∀ (n : Nat) (s : Specifier), toStrIn n s = if s.depth ≤ n then .ok s.toStr else .error .recursionError
  | 0, s => by simp [toStrIn, Nat.ne_of_gt (depth_pos s)]
  | n + 1, .never => by simp [toStrIn, toStr, depth]
  | n + 1, .always => by simp [toStrIn, toStr, depth]
  | n + 1, .one o => by simp [toStrIn, toStr, depth]
  | n + 1, .any l => by
    rw [toStrIn, eachCall_eq (toStrIn_eq n), toStr, toStrs_eq]
    by_cases h : depthAll l ≤ n <;> simp [h, depth, bind, Except.bind]
  | n + 1, .all l => by
    rw [toStrIn, eachCall_eq (toStrIn_eq n), toStr, toStrs_eq]
    by_cases h : depthAll l ≤ n <;> simp [h, depth, bind, Except.bind]

theorem toShortStrIn_eq : ∀ (n : Nat) (s : Specifier),
    toShortStrIn n s = if s.depth ≤ n then .ok s.toShortStr else .error .recursionError
  | 0, s => by simp [toShortStrIn, Nat.ne_of_gt (depth_pos s)]
  | n + 1, .never => by simp [toShortStrIn, toShortStr, depth]
  | n + 1, .always => by simp [toShortStrIn, toShortStr, depth]
  | n + 1, .one o => by simp [toShortStrIn, toShortStr, depth]
  | n + 1, .any l => by
    rw [toShortStrIn, eachCall_eq (toShortStrIn_eq n), toShortStr, toShortStrs_eq]
    by_cases h : depthAll l ≤ n <;> simp [h, depth, bind, Except.bind]
  | n + 1, .all l => by
    rw [toShortStrIn, eachCall_eq (toShortStrIn_eq n), toShortStr, toShortStrs_eq]
    by_cases h : depthAll l ≤ n <;> simp [h, depth, bind, Except.bind]

theorem hashIn_eq (H : Hasher) : ∀ (n : Nat) (s : Specifier),
    hashIn H n s = if s.depth ≤ n then .ok (H.specifier s) else .error .recursionError
  | 0, s => by simp [hashIn, Nat.ne_of_gt (depth_pos s)]
  | n + 1, .never => by simp [hashIn, Hasher.specifier, depth]
  | n + 1, .always => by simp [hashIn, Hasher.specifier, depth]
  | n + 1, .one o => by simp [hashIn, Hasher.specifier, depth]
  | n + 1, .any l => by
    rw [hashIn, eachCall_eq (hashIn_eq H n), Hasher.specifier, hashes_eq]
    by_cases h : depthAll l ≤ n <;> simp [h, depth, bind, Except.bind]
  | n + 1, .all l => by
    rw [hashIn, eachCall_eq (hashIn_eq H n), Hasher.specifier, hashes_eq]
    by_cases h : depthAll l ≤ n <;> simp [h, depth, bind, Except.bind]

theorem reduceCalls_all {lim : Nat} {f : Specifier → Except PyErr VSet} : ∀ {l : List Specifier} (acc : VSet),
    (∀ s ∈ l, f s = toSet lim s) → reduceCalls (VSet.intersection lim) f acc l = reduceAll lim acc l
  | [], _, _ => by simp [reduceCalls, reduceAll]
  | a :: l, acc, h => by
    rw [reduceCalls, reduceAll, h a (by simp)]
    congr 1; funext x; congr 1; funext y
    exact reduceCalls_all y fun s hs => h s (by simp [hs])

theorem reduceCalls_any {lim : Nat} {f : Specifier → Except PyErr VSet} : ∀ {l : List Specifier} (acc : VSet),
    (∀ s ∈ l, f s = toSet lim s) → reduceCalls (VSet.unionWith lim) f acc l = reduceAny lim acc l
  | [], _, _ => by simp [reduceCalls, reduceAny]
  | a :: l, acc, h => by
    rw [reduceCalls, reduceAny, h a (by simp)]
    congr 1; funext x; congr 1; funext y
    exact reduceCalls_any y fun s hs => h s (by simp [hs])

theorem toSetIn_eq (lim : Nat) : ∀ (n : Nat) (s : Specifier), s.depth ≤ n → toSetIn lim n s = toSet lim s
  | 0, s, h => absurd (depth_pos s) (by omega)
  | n + 1, .never, _ => by simp [toSetIn, toSet]
  | n + 1, .always, _ => by simp [toSetIn, toSet]
  | n + 1, .one o, _ => by simp [toSetIn, toSet]
  | n + 1, .any [], _ => by simp [toSetIn, toSet]
  | n + 1, .all [], _ => by simp [toSetIn, toSet]
  | n + 1, .any (a :: l), h => by
    have hl := depthAll_le.1 (show depthAll (a :: l) ≤ n by simpa [depth] using h)
    rw [toSetIn, toSet, toSetIn_eq lim n a (hl a (by simp))]
    congr 1; funext x
    exact reduceCalls_any x fun s hs => toSetIn_eq lim n s (hl s (by simp [hs]))
  | n + 1, .all (a :: l), h => by
    have hl := depthAll_le.1 (show depthAll (a :: l) ≤ n by simpa [depth] using h)
    rw [toSetIn, toSet, toSetIn_eq lim n a (hl a (by simp))]
    congr 1; funext x
    exact reduceCalls_all x fun s hs => toSetIn_eq lim n s (hl s (by simp [hs]))

theorem depth_ofAll (l : List Operator) : (ofAll l).depth ≤ 2 := by
  have h : depthAll (l.map one) ≤ 1 := depthAll_le.2 fun s hs => by
    obtain ⟨o, -, rfl⟩ := List.mem_map.1 hs
    simp [depth]
  unfold ofAll
  split
  · simp [depth]
  · simp only [depth]; omega

theorem depth_ofAny (gs : List (List Operator)) : (ofAny gs).depth ≤ 3 := by
  have h : depthAll (gs.map ofAll) ≤ 2 := depthAll_le.2 fun s hs => by
    obtain ⟨o, -, rfl⟩ := List.mem_map.1 hs
    exact depth_ofAll o
  unfold ofAny
  split
  · exact Nat.le_succ_of_le (depth_ofAll _)
  · simp only [depth]; omega

theorem IsLowerBound.depth {s : Specifier} (h : s.IsLowerBound) : s.depth = 1 := by
  cases s <;> simp_all [IsLowerBound, Specifier.depth]

theorem IsUpperBound.depth {s : Specifier} (h : s.IsUpperBound) : s.depth = 1 := by
  cases s <;> simp_all [IsUpperBound, Specifier.depth]

theorem IsPin.depth {s : Specifier} (h : s.IsPin) : s.depth = 1 := by
  cases s <;> simp_all [IsPin, Specifier.depth]

theorem IsExclusion.depth {s : Specifier} (h : s.IsExclusion) : s.depth = 1 := by
  cases s <;> simp_all [IsExclusion, Specifier.depth]

theorem IsPiece.depth {s : Specifier} (h : s.IsPiece) : s.depth ≤ 2 := by
  rcases h with h | h | h | ⟨a, b, rfl, ha, hb⟩
  · simp [h.depth]
  · simp [h.depth]
  · simp [h.depth]
  · simp [Specifier.depth, depthAll, ha.depth, hb.depth]

theorem IsSimple.depth {s : Specifier} (h : s.IsSimple) : s.depth ≤ 3 := by
  rcases h with rfl | rfl | h | h | ⟨l, rfl, -, h⟩
  · simp [Specifier.depth]
  · simp [Specifier.depth]
  · simp [h.depth]
  · have := h.depth; omega
  · simpa [Specifier.depth] using depthAll_le.2 fun s hs => (h s hs).depth

end Verif.Specifier
