import Verif.Proofs.EnginePatterns
import Verif.Proofs.Splitting
/-!
# C84: matching takes time linear in the length of the string

The engine behind `re` backtracks, and for some patterns it takes exponentially many steps on some strings (regular
expression denial of service). None of the patterns of /repo/versions/patterns.py is of that kind.
-/

namespace Verif
open Re

/-- The engine that stops at the first success finds what the list of all ways to match says. -/
theorem C84_engine (r : Re) (s : PyStr) : (search r s).result = fullmatch r s := search_result r s

example : (search Pattern.tag "rc.1".toList).result = some [(.value, "1".toList), (.phase, "rc".toList)] ∧
    (search Pattern.tag "rc.".toList).result = none := by decide +kernel

/-- For each pattern there is a constant such that matching any string, successfully or not, takes at most that many
steps per character (and one more). -/
theorem C84_linear : ∀ r ∈ [Pattern.tag, Pattern.version, Pattern.wildcardSpecification, Pattern.orderSpecification,
      Pattern.caretSpecification, Pattern.tildeSpecification, Pattern.equalSpecification],
    ∃ B, ∀ s : PyStr, (search r s).steps ≤ B * (s.length + 1) := by
  have key : ∀ {r : Re}, Linear (cost r (fun _ => 1)) → ∃ B, ∀ s : PyStr, (search r s).steps ≤ B * (s.length + 1) := by
    intro r h
    refine ⟨h.constant + h.factor, fun s => (search_linear h s).trans ?_⟩
    have : h.factor * s.length ≤ (h.constant + h.factor) * s.length := Nat.mul_le_mul_right _ (by omega)
    rw [Nat.mul_add]
    omega
  intro r hr
  simp only [List.mem_cons, List.not_mem_nil, or_false] at hr
  rcases hr with rfl | rfl | rfl | rfl | rfl | rfl | rfl
  · exact key .tag
  · exact key (.version 1 (fun _ => Nat.le_refl _) .end_)
  · exact key .wildcardSpecification
  · exact key .orderSpecification
  · exact key .caretSpecification
  · exact key .tildeSpecification
  · exact key .equalSpecification

example : (search Pattern.version "1.1.1.1".toList).steps = 102 ∧ (search Pattern.version "1.1.1.1!".toList).steps = 394 := by
  decide +kernel

/-- The clauses of a specification string, as `parse_specifier` tries them: /repo/versions/parsers.py 161-184. -/
def clauses (s : PyStr) : List PyStr := (splitPipes (clearWhitespace s)).flatMap splitComma

theorem sum_splitAt (p : Char → Bool) : ∀ s : PyStr, ((splitAt p s).map (fun w => w.length + 1)).sum = s.length + 1
  | [] => rfl
  | c :: s => by
    have ih := sum_splitAt p s
    simp only [splitAt]
    split
    · simp only [List.map_cons, List.sum_cons, ih, List.length_cons, List.length_nil]
      omega
    · split
      · rename_i h
        rw [h] at ih
        simp at ih
      · rename_i w ws h
        rw [h] at ih
        simp only [List.map_cons, List.sum_cons, List.length_cons] at ih ⊢
        omega

theorem replacePipes_length : ∀ s : PyStr, (replacePipes s).length ≤ s.length
  | [] => Nat.le_refl _
  | [c] => by simp [replacePipes]
  | c :: d :: s => by
    have h1 := replacePipes_length s
    have h2 := replacePipes_length (d :: s)
    unfold replacePipes
    split
    · rename_i e
      cases e
      simp only [List.length_cons]
      omega
    · rename_i e
      cases e
      simpa using h2
    · simp

theorem sum_clauses (s : PyStr) : ((clauses s).map (fun w => w.length + 1)).sum ≤ s.length + 1 := by
  have h : ∀ l : List PyStr, ((l.flatMap splitComma).map (fun w => w.length + 1)).sum = (l.map (fun w => w.length + 1)).sum := by
    intro l
    induction l with
    | nil => rfl
    | cons w l ih =>
      simp only [List.flatMap_cons, List.map_append, List.sum_append, ih, List.map_cons, List.sum_cons]
      rw [splitComma, sum_splitAt]
  rw [clauses, h, splitPipes, sum_splitAt]
  refine Nat.succ_le_succ ((replacePipes_length _).trans ?_)
  rw [clearWhitespace_eq]
  exact List.length_filter_le _ _

/-- Parsing a specification string matches each of its clauses against at most five patterns. All of that together takes
time linear in the length of the whole string, however many clauses there are. -/
theorem C84_specification : ∃ B, ∀ s : PyStr,
    ((clauses s).map (fun w => ([Pattern.wildcardSpecification, Pattern.orderSpecification, Pattern.equalSpecification,
      Pattern.caretSpecification, Pattern.tildeSpecification].map (fun r => (search r w).steps)).sum)).sum ≤ B * (s.length + 1) := by
  obtain ⟨B₁, h₁⟩ := C84_linear Pattern.wildcardSpecification (by simp)
  obtain ⟨B₂, h₂⟩ := C84_linear Pattern.orderSpecification (by simp)
  obtain ⟨B₃, h₃⟩ := C84_linear Pattern.equalSpecification (by simp)
  obtain ⟨B₄, h₄⟩ := C84_linear Pattern.caretSpecification (by simp)
  obtain ⟨B₅, h₅⟩ := C84_linear Pattern.tildeSpecification (by simp)
  refine ⟨B₁ + B₂ + B₃ + B₄ + B₅, fun s => Nat.le_trans ?_ (Nat.mul_le_mul_left _ (sum_clauses s))⟩
  induction clauses s with
  | nil => exact Nat.zero_le _
  | cons w l ih =>
    have a₁ := h₁ w
    have a₂ := h₂ w
    have a₃ := h₃ w
    have a₄ := h₄ w
    have a₅ := h₅ w
    simp only [List.map_cons, List.map_nil, List.sum_cons, List.sum_nil, Nat.mul_add (B₁ + B₂ + B₃ + B₄ + B₅)] at ih ⊢
    have e : (B₁ + B₂ + B₃ + B₄ + B₅) * w.length + (B₁ + B₂ + B₃ + B₄ + B₅) * 1 =
        B₁ * (w.length + 1) + B₂ * (w.length + 1) + B₃ * (w.length + 1) + B₄ * (w.length + 1) + B₅ * (w.length + 1) := by
      simp only [← Nat.add_mul, ← Nat.mul_add]
    omega

example : clauses ">= 1.0, < 2 || 3.*".toList = [">=1.0".toList, "<2".toList, "3.*".toList] ∧
    (search Pattern.orderSpecification ">=1.0".toList).steps = 94 ∧ (search Pattern.caretSpecification ">=1.0".toList).steps = 3 := by
  decide +kernel

/-- The bound is a property of these patterns: `(?:a|a)*` takes at least `2ⁿ` steps to reject `n` times `a`, then `b`. -/
theorem C84_exponential (n : Nat) :
    2 ^ n ≤ (search (.star (.alt (lit 'a') (lit 'a'))) (List.replicate n 'a' ++ ['b'])).steps := by
  have key : ∀ (n m : Nat) (caps : Caps), n ≤ m →
      (repeatEngine (engine (.alt (lit 'a') (lit 'a'))) atEnd m (List.replicate n 'a' ++ ['b'], caps)).result = none ∧
      2 ^ n ≤ (repeatEngine (engine (.alt (lit 'a') (lit 'a'))) atEnd m (List.replicate n 'a' ++ ['b'], caps)).steps := by
    intro n
    induction n with
    | zero =>
      intro m caps _
      cases m with
      | zero => exact ⟨rfl, by simp [repeatEngine]⟩
      | succ m => exact ⟨rfl, by simp [repeatEngine, Outcome.tick]⟩
    | succ n ih =>
      intro m caps hm
      match m, hm with
      | m + 1, hm =>
        obtain ⟨h1, h2⟩ := ih m caps (by omega)
        have hl : (List.replicate n 'a' ++ ['b']).length < (List.replicate (n + 1) 'a' ++ ['b']).length := by simp
        have e : ∀ k : State → Outcome, (engine (.alt (lit 'a') (lit 'a'))) k (List.replicate (n + 1) 'a' ++ ['b'], caps) =
            (((k (List.replicate n 'a' ++ ['b'], caps)).tick).orElse ((k (List.replicate n 'a' ++ ['b'], caps)).tick)).tick := by
          intro k
          simp [engine, lit, List.replicate_succ]
        simp only [repeatEngine, e, hl, if_true]
        generalize repeatEngine _ _ _ _ = o at h1 h2
        obtain ⟨res, st⟩ := o
        simp only at h1 h2
        subst h1
        refine ⟨by simp [Outcome.tick, Outcome.orElse, atEnd], ?_⟩
        simp only [Outcome.tick, Outcome.orElse, Nat.pow_succ]
        omega
  exact (key n _ [] (by simp)).2

example : (search (.star (.alt (lit 'a') (lit 'a'))) "aaaaaaab".toList).steps = 1275 := by decide +kernel

end Verif
