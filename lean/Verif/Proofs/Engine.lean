import Verif.Model.Engine
import Mathlib.Tactic.Common
import Mathlib.Tactic.Linarith
/-! # The engine: agreement with `Re.run`, and bounds on its steps -/

namespace Verif.Re

@[simp] theorem tick_result (o : Outcome) : o.tick.result = o.result := rfl
@[simp] theorem tick_steps (o : Outcome) : o.tick.steps = o.steps + 1 := rfl
@[simp] theorem fail_result : Outcome.fail.result = none := rfl
@[simp] theorem fail_steps : Outcome.fail.steps = 1 := rfl

theorem orElse_result (a b : Outcome) : (a.orElse b).result = a.result.or b.result := by
  rcases a with ⟨_ | _, _⟩ <;> rfl

theorem orElse_steps_le (a b : Outcome) : (a.orElse b).steps ≤ a.steps + b.steps := by
  rcases a with ⟨_ | _, _⟩
  · exact Nat.le_refl _
  · exact Nat.le_add_right _ _

theorem repeatEngine_result {body : (State → Outcome) → State → Outcome} {f : State → List State}
    (h : ∀ k st, (body k st).result = (f st).findSome? (fun st' => (k st').result)) (k : State → Outcome) :
    ∀ n st, (repeatEngine body k n st).result = (iterate f n st).findSome? (fun st' => (k st').result)
  | 0, st => by simp [repeatEngine, iterate]
  | n + 1, st => by
    have filt : ∀ l : List State,
        l.findSome? (fun st' => (if st'.1.length < st.1.length then repeatEngine body k n st' else Outcome.fail).result) =
        ((l.filter (fun st' => decide (st'.1.length < st.1.length))).flatMap (iterate f n)).findSome? (fun st' => (k st').result) := by
      intro l
      induction l with
      | nil => rfl
      | cons x l ih =>
        by_cases hx : x.1.length < st.1.length
        · simp only [List.findSome?_cons, List.filter_cons, hx, decide_true, if_true, List.flatMap_cons, List.findSome?_append,
            repeatEngine_result h k n x, ih]
          cases (iterate f n x).findSome? (fun st' => (k st').result) <;> rfl
        · simp only [List.findSome?_cons, List.filter_cons, hx, decide_false, if_false, fail_result, ih]
          rfl
    simp only [repeatEngine, iterate, tick_result, orElse_result, h, filt, List.findSome?_append, List.findSome?_cons, List.findSome?_nil]
    cases ((List.filter (fun st' => decide (st'.1.length < st.1.length)) (f st)).flatMap (iterate f n)).findSome? (fun st' => (k st').result) <;>
      cases (k st).result <;> rfl

theorem engine_result : ∀ (r : Re) (k : State → Outcome) (st : State),
    (engine r k st).result = (run r st).findSome? (fun st' => (k st').result)
  | chr p, k, (s, caps) => by
    cases s with
    | nil => rfl
    | cons c rest =>
      by_cases h : p c = true
      · simp [engine, run, h]
      · simp [engine, run, h]
  | eps, k, st => by simp [engine, run]
  | seq a b, k, st => by
    simp only [engine, run, tick_result, engine_result a, engine_result b]
    induction run a st with
    | nil => rfl
    | cons x l ih =>
      simp only [List.findSome?_cons, List.flatMap_cons, List.findSome?_append, ih]
      cases (run b x).findSome? (fun st' => (k st').result) <;> rfl
  | alt a b, k, st => by
    simp only [engine, run, tick_result, orElse_result, engine_result a, engine_result b, List.findSome?_append]
  | opt a, k, st => by
    simp only [engine, run, tick_result, orElse_result, engine_result a, List.findSome?_append, List.findSome?_cons, List.findSome?_nil]
    cases (k st).result <;> rfl
  | star a, k, st => by
    simp only [engine, run]
    exact repeatEngine_result (engine_result a) k _ st
  | group g a, k, st => by
    simp only [engine, run, tick_result, engine_result a, List.findSome?_map]
    rfl

theorem search_result (r : Re) (s : PyStr) : (search r s).result = fullmatch r s := by
  rw [search, engine_result, fullmatch]
  induction run r (s, []) with
  | nil => rfl
  | cons x l ih =>
    simp only [List.findSome?_cons, List.find?_cons, atEnd] at ih ⊢
    cases x.1.isEmpty
    · simpa using ih
    · simp

/-! ## The cost of trying everything, on the string alone -/

def repeatCost (body : (PyStr → Nat) → PyStr → Nat) (k : PyStr → Nat) : Nat → PyStr → Nat
  | 0, s => k s + 1
  | n + 1, s => body (fun s' => if s'.length < s.length then repeatCost body k n s' else 1) s + k s + 1

def cost : Re → (PyStr → Nat) → PyStr → Nat
  | chr p, k, s => match s with
    | [] => 1
    | c :: rest => if p c then k rest + 1 else 1
  | eps, k, s => k s + 1
  | seq a b, k, s => cost a (cost b k) s + 1
  | alt a b, k, s => cost a k s + cost b k s + 1
  | opt a, k, s => cost a k s + k s + 1
  | star a, k, s => repeatCost (cost a) k s.length s
  | group _ a, k, s => cost a k s + 1

theorem cost_nil (p : Char → Bool) (k : PyStr → Nat) : cost (.chr p) k [] = 1 := rfl
theorem cost_cons (p : Char → Bool) (k : PyStr → Nat) (c : Char) (s : PyStr) :
    cost (.chr p) k (c :: s) = if p c then k s + 1 else 1 := rfl
theorem cost_seq (a b : Re) (k : PyStr → Nat) (s : PyStr) : cost (.seq a b) k s = cost a (cost b k) s + 1 := rfl
theorem cost_star (a : Re) (k : PyStr → Nat) (s : PyStr) : cost (.star a) k s = repeatCost (cost a) k s.length s := rfl
theorem cost_plus (a : Re) (k : PyStr → Nat) (s : PyStr) : cost (plus a) k s = cost a (cost (.star a) k) s + 1 := rfl

theorem repeatEngine_steps {body : (State → Outcome) → State → Outcome} {f : (PyStr → Nat) → PyStr → Nat}
    (h : ∀ (k : State → Outcome) (k' : PyStr → Nat), (∀ st, (k st).steps ≤ k' st.1) → ∀ st, (body k st).steps ≤ f k' st.1)
    {k : State → Outcome} {k' : PyStr → Nat} (hk : ∀ st, (k st).steps ≤ k' st.1) :
    ∀ n st, (repeatEngine body k n st).steps ≤ repeatCost f k' n st.1
  | 0, st => by simpa [repeatEngine, repeatCost] using hk st
  | n + 1, st => by
    simp only [repeatEngine, repeatCost, tick_steps]
    refine Nat.succ_le_succ ((orElse_steps_le _ _).trans (Nat.add_le_add (h _ _ (fun st' => ?_) st) (hk st)))
    split
    · exact repeatEngine_steps h hk n st'
    · exact Nat.le_refl _

theorem engine_steps : ∀ (r : Re) (k : State → Outcome) (k' : PyStr → Nat), (∀ st, (k st).steps ≤ k' st.1) →
    ∀ st, (engine r k st).steps ≤ cost r k' st.1
  | chr p, k, k', hk, (s, caps) => by
    cases s with
    | nil => exact Nat.le_refl _
    | cons c rest =>
      simp only [engine, cost]
      split
      · exact Nat.succ_le_succ (hk _)
      · exact Nat.le_refl _
  | eps, k, k', hk, st => Nat.succ_le_succ (hk st)
  | seq a b, k, k', hk, st => Nat.succ_le_succ (engine_steps a _ _ (engine_steps b k k' hk) st)
  | alt a b, k, k', hk, st => Nat.succ_le_succ
      ((orElse_steps_le _ _).trans (Nat.add_le_add (engine_steps a k k' hk st) (engine_steps b k k' hk st)))
  | opt a, k, k', hk, st => Nat.succ_le_succ
      ((orElse_steps_le _ _).trans (Nat.add_le_add (engine_steps a k k' hk st) (hk st)))
  | star a, k, k', hk, st => repeatEngine_steps (engine_steps a) hk _ st
  | group g a, k, k', hk, st => Nat.succ_le_succ (engine_steps a _ k' (fun st' => hk (st'.1, (g, st.1.take (st.1.length - st'.1.length)) :: st'.2)) st)

theorem repeatCost_mono {f : (PyStr → Nat) → PyStr → Nat}
    (h : ∀ k k' : PyStr → Nat, (∀ s, k s ≤ k' s) → ∀ s, f k s ≤ f k' s) {k k' : PyStr → Nat} (hk : ∀ s, k s ≤ k' s) :
    ∀ n s, repeatCost f k n s ≤ repeatCost f k' n s
  | 0, s => Nat.succ_le_succ (hk s)
  | n + 1, s => by
    simp only [repeatCost]
    refine Nat.succ_le_succ (Nat.add_le_add (h _ _ (fun s' => ?_) s) (hk s))
    split
    · exact repeatCost_mono h hk n s'
    · exact Nat.le_refl _

/-! ## Patterns that cannot start with the next character -/

/-- The number of ways to match nothing (at most). -/
def empties : Re → Nat
  | chr _ => 0
  | eps => 1
  | seq a b => empties a * empties b
  | alt a b => empties a + empties b
  | opt a => empties a + 1
  | star _ => 1
  | group _ a => empties a

/-- The characters a match of the pattern can start with. -/
def starts : Re → Char → Bool
  | chr p, c => p c
  | eps, _ => false
  | seq a b, c => starts a c || (decide (empties a ≠ 0) && starts b c)
  | alt a b, c => starts a c || starts b c
  | opt a, c => starts a c
  | star a, c => starts a c
  | group _ a, c => starts a c

def weight : Re → Nat
  | chr _ => 1
  | eps => 1
  | seq a b => weight a + empties a * weight b + 1
  | alt a b => weight a + weight b + 1
  | opt a => weight a + 1
  | star a => weight a + empties a + 1
  | group _ a => weight a + 1

/-- The string does not start with a character satisfying `p`. -/
def Blocked (p : Char → Bool) : PyStr → Prop
  | [] => True
  | c :: _ => p c = false

theorem Blocked.imp {p q : Char → Bool} (h : ∀ c, q c = true → p c = true) : ∀ {s : PyStr}, Blocked p s → Blocked q s
  | [], _ => trivial
  | c :: _, hb => by
    cases hq : q c
    · exact hq
    · have := h c hq
      rw [show p c = false from hb] at this
      cases this

theorem cost_blocked : ∀ (r : Re) (k : PyStr → Nat) (s : PyStr), Blocked (starts r) s → cost r k s ≤ weight r + empties r * k s
  | chr p, k, [], _ => by simp [cost, weight, empties]
  | chr p, k, c :: s, h => by
    have h' : p c = false := h
    simp [cost, weight, empties, h']
  | eps, k, s, _ => by simp [cost, weight, empties]; omega
  | seq a b, k, s, h => by
    have ha := cost_blocked a (cost b k) s (h.imp fun c hc => by simp [starts, hc])
    simp only [cost, weight, empties]
    by_cases he : empties a = 0
    · simp only [he, Nat.zero_mul] at ha ⊢
      omega
    · have hb := cost_blocked b k s (h.imp fun c hc => by simp [starts, hc, he])
      have := Nat.mul_le_mul_left (empties a) hb
      rw [Nat.mul_add, ← Nat.mul_assoc] at this
      omega
  | alt a b, k, s, h => by
    have ha := cost_blocked a k s (h.imp fun c hc => by simp [starts, hc])
    have hb := cost_blocked b k s (h.imp fun c hc => by simp [starts, hc])
    simp only [cost, weight, empties, Nat.add_mul]
    omega
  | opt a, k, s, h => by
    have ha := cost_blocked a k s h
    simp only [cost, weight, empties, Nat.add_mul]
    omega
  | star a, k, s, h => by
    have ha : ∀ k', cost a k' s ≤ weight a + empties a * k' s := fun k' => cost_blocked a k' s h
    simp only [cost, weight, empties, Nat.one_mul]
    cases hn : s.length with
    | zero => simp only [repeatCost]; omega
    | succ n =>
      have := ha (fun s' => if s'.length < s.length then repeatCost (cost a) k n s' else 1)
      simp only [Nat.lt_irrefl, if_false, Nat.mul_one] at this
      simp only [repeatCost]
      omega
  | group _ a, k, s, h => by
    have ha := cost_blocked a k s h
    simp only [cost, weight, empties]
    omega

/-! ## Linear continuations -/

/-- At most linear in the length. -/
structure Linear (k : PyStr → Nat) where
  constant : Nat
  factor : Nat
  le : ∀ s, k s ≤ constant + factor * s.length

/-- Bounded on the strings satisfying `P`. -/
structure Quick (P : PyStr → Prop) (k : PyStr → Nat) where
  constant : Nat
  le : ∀ s, P s → k s ≤ constant

def Linear.chr {k : PyStr → Nat} (p : Char → Bool) : Linear k → Linear (cost (.chr p) k)
  | ⟨A, B, h⟩ => ⟨A + 1, B, fun s => by
      cases s with
      | nil => simp [cost]
      | cons c t =>
        have := h t
        simp only [cost, List.length_cons, Nat.mul_add]
        split <;> omega⟩

def Linear.add {k k' : PyStr → Nat} : Linear k → Linear k' → Linear (fun s => k s + k' s)
  | ⟨A, B, h⟩, ⟨A', B', h'⟩ => ⟨A + A', B + B', fun s => by
      have := h s
      have := h' s
      simp only [Nat.add_mul]
      omega⟩

def Linear.succ {k : PyStr → Nat} : Linear k → Linear (fun s => k s + 1)
  | ⟨A, B, h⟩ => ⟨A + 1, B, fun s => by have := h s; show k s + 1 ≤ _; omega⟩

def Linear.eps {k : PyStr → Nat} (h : Linear k) : Linear (cost .eps k) := h.succ
def Linear.seq {k : PyStr → Nat} {a b : Re} (h : Linear (cost a (cost b k))) : Linear (cost (.seq a b) k) := h.succ
def Linear.alt {k : PyStr → Nat} {a b : Re} (ha : Linear (cost a k)) (hb : Linear (cost b k)) : Linear (cost (.alt a b) k) :=
  (ha.add hb).succ
def Linear.opt {k : PyStr → Nat} {a : Re} (ha : Linear (cost a k)) (hk : Linear k) : Linear (cost (.opt a) k) := (ha.add hk).succ
def Linear.group {k : PyStr → Nat} {a : Re} (g : Grp) (ha : Linear (cost a k)) : Linear (cost (.group g a) k) := ha.succ

/-- No repetitions. -/
def starFree : Re → Bool
  | chr _ => true
  | eps => true
  | seq a b => starFree a && starFree b
  | alt a b => starFree a && starFree b
  | opt a => starFree a
  | star _ => false
  | group _ a => starFree a

def Linear.starFree : ∀ (r : Re), r.starFree = true → ∀ {k : PyStr → Nat}, Linear k → Linear (cost r k)
  | .chr p, _, _, hk => hk.chr p
  | .eps, _, _, hk => hk.eps
  | .seq a b, h, _, hk => by
    simp only [Re.starFree, Bool.and_eq_true] at h
    exact .seq (Linear.starFree a h.1 (Linear.starFree b h.2 hk))
  | .alt a b, h, _, hk => by
    simp only [Re.starFree, Bool.and_eq_true] at h
    exact .alt (Linear.starFree a h.1 hk) (Linear.starFree b h.2 hk)
  | .opt a, h, _, hk => .opt (Linear.starFree a h hk) hk
  | .star _, h, _, _ => by simp [Re.starFree] at h
  | .group g a, h, _, hk => .group g (Linear.starFree a h hk)

/-- The string starts with a character satisfying `p`. -/
def Starts (p : Char → Bool) : PyStr → Prop
  | [] => False
  | c :: _ => p c = true

/-- The string starts with a character satisfying `q` and then one satisfying `p`. -/
def Starts₂ (q p : Char → Bool) : PyStr → Prop
  | c :: d :: _ => q c = true ∧ p d = true
  | _ => False

/-- The loop over a class, relative to the strings of length at most `N`. -/
theorem class_loop (p : Char → Bool) (k : PyStr → Nat) (A B c N : Nat) (hB : c + 2 ≤ B)
    (hk : ∀ s, s.length ≤ N → k s ≤ A + B * s.length) (hc : ∀ s, s.length ≤ N → Starts p s → k s ≤ c) :
    ∀ (s : PyStr) (n : Nat), s.length ≤ N → repeatCost (cost (.chr p)) k n s ≤ A + 3 + B * s.length
  | s, 0, hs => by
    have := hk s hs
    simp only [repeatCost]
    omega
  | [], n + 1, hs => by
    have := hk [] hs
    simp only [repeatCost, cost_seq, cost_cons, cost_nil]
    omega
  | ch :: t, n + 1, hs => by
    simp only [repeatCost, cost_seq, cost_cons, cost_nil]
    by_cases h : p ch = true
    · have h1 := hc (ch :: t) hs h
      have h2 := class_loop p k A B c N hB hk hc t n (by simp at hs; omega)
      have hl : t.length < (ch :: t).length := by simp
      simp only [h, if_true, hl]
      simp only [List.length_cons, Nat.mul_add]
      omega
    · have := hk _ hs
      simp only [h]
      simp only [Bool.false_eq_true, if_false]
      omega

def Linear.star_class {k : PyStr → Nat} (p : Char → Bool) : Linear k → Quick (Starts p) k → Linear (cost (.star (.chr p)) k)
  | ⟨A, B, h⟩, ⟨c, hc⟩ => ⟨A + 3, B + c + 2, fun s => by
      refine class_loop p k A (B + c + 2) c s.length (by omega) (fun s _ => (h s).trans ?_) (fun s _ => hc s) s _ (Nat.le_refl _)
      exact Nat.add_le_add_left (Nat.mul_le_mul_right _ (by omega)) _⟩

def Linear.plus_class {k : PyStr → Nat} (p : Char → Bool) (hk : Linear k) (hq : Quick (Starts p) k) :
    Linear (cost (plus (.chr p)) k) := .seq ((hk.star_class p hq).chr p)

/-- `(?:qp+)*` -/
theorem sep_loop (q p : Char → Bool) (hd : ∀ c, q c = true → p c = false) (k : PyStr → Nat) (A B c : Nat) (hB : c + 12 ≤ B)
    (hk : ∀ s, k s ≤ A + B * s.length) (hc : ∀ s, Starts p s → k s ≤ c) (hc₂ : ∀ s, Starts₂ q p s → k s ≤ c) :
    ∀ (N : Nat) (s : PyStr) (n : Nat), s.length ≤ N →
      repeatCost (cost (.seq (.chr q) (plus (.chr p)))) k n s ≤ A + 5 + B * s.length := by
  have quick : ∀ (n : Nat) (s : PyStr), Starts p s → repeatCost (cost (.seq (.chr q) (plus (.chr p)))) k n s ≤ c + 3 := by
    intro n s hs
    have h1 := hc s hs
    cases n with
    | zero => simp only [repeatCost]; omega
    | succ n =>
      match s, hs with
      | ch :: t, hs =>
        have hq : q ch = false := by
          cases hq : q ch
          · rfl
          · have := hd ch hq
            rw [show p ch = true from hs] at this
            cases this
        simp only [repeatCost, cost_seq, cost_cons, cost_nil, hq]
        simp only [Bool.false_eq_true, if_false]
        omega
  intro N
  induction N with
  | zero =>
    intro s n hs
    have : s = [] := List.length_eq_zero_iff.1 (Nat.le_zero.1 hs)
    subst this
    have := hk []
    cases n with
    | zero => simp only [repeatCost]; omega
    | succ n => simp only [repeatCost, cost_seq, cost_cons, cost_nil]; omega
  | succ N ih =>
    intro s n hs
    have hks := hk s
    cases n with
    | zero => simp only [repeatCost]; omega
    | succ n =>
      match s with
      | [] => simp only [repeatCost, cost_seq, cost_cons, cost_nil]; omega
      | ch :: t =>
        by_cases hq : q ch = true
        · match t with
          | [] =>
            simp only [repeatCost, cost_seq, cost_plus, cost_cons, cost_nil, hq, if_true]
            omega
          | d :: u =>
            by_cases hp : p d = true
            · have h1 := hc₂ (ch :: d :: u) ⟨hq, hp⟩
              simp only [repeatCost, cost_seq, cost_plus, cost_cons, cost_star, hq, hp, if_true]
              have h2 := class_loop p
                (fun s' => if s'.length < (ch :: d :: u).length then
                  repeatCost (cost (.seq (.chr q) (plus (.chr p)))) k n s' else 1) (A + 5) B (c + 3) u.length (by omega)
                (fun s' hs' => by
                  have : s'.length < (ch :: d :: u).length := by simp; omega
                  simp only [this, if_true]
                  exact ih s' n (by simp at hs; omega))
                (fun s' hs' hst => by
                  have : s'.length < (ch :: d :: u).length := by simp; omega
                  simp only [this, if_true]
                  exact quick n s' hst)
                u u.length (Nat.le_refl _)
              simp only [List.length_cons, Nat.mul_add] at h2 ⊢
              omega
            · simp only [repeatCost, cost_seq, cost_plus, cost_cons, cost_star, hq, hp, if_true]
              simp only [Bool.false_eq_true, if_false]
              omega
        · simp only [repeatCost, cost_seq, cost_cons, cost_nil, hq]
          simp only [Bool.false_eq_true, if_false]
          omega

def Linear.star_sep {k : PyStr → Nat} (q p : Char → Bool) (hd : ∀ c, q c = true → p c = false) :
    Linear k → Quick (Starts p) k → Quick (Starts₂ q p) k → Linear (cost (.star (.seq (.chr q) (plus (.chr p)))) k)
  | ⟨A, B, h⟩, ⟨c, hc⟩, ⟨c', hc'⟩ => ⟨A + 5, B + (c + c') + 12, fun s => by
      refine sep_loop q p hd k A (B + (c + c') + 12) (c + c') (by omega) (fun s => (h s).trans ?_)
        (fun s hs => (hc s hs).trans (by omega)) (fun s hs => (hc' s hs).trans (by omega)) s.length s _ (Nat.le_refl _)
      exact Nat.add_le_add_left (Nat.mul_le_mul_right _ (by omega)) _⟩

end Verif.Re
