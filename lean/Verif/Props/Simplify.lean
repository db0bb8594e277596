import Verif.Proofs.Edges
import Verif.Props.Specifiers
/-!
# Properties of simplified specifiers (C86)
-/

namespace Verif
open scoped Verif

/-- `^1 || ^3`, for the examples. -/
def exCarets : Specifier := .any [.one ⟨.caret, exVersion [1]⟩, .one ⟨.caret, exVersion [3]⟩]

theorem exCarets_valid : exCarets.Valid := by
  have h : ∀ l, l ≠ [] → (exVersion l).Valid := fun l hl => exValid _ hl _ _ _ (by simp) (by simp) (by simp)
  refine .any (by simp) ?_
  simp only [List.mem_cons, List.not_mem_nil, or_false, forall_eq_or_imp, forall_eq]
  exact ⟨.one (h _ (by simp)) (by simp), .one (h _ (by simp)) (by simp)⟩

/-- C86. What `simplify` returns is `never`, `always`, `!= v`, or one or several pieces, each `== v`, a lower bound, an upper
bound, or a lower bound and an upper bound. -/
theorem C86_shape (s : Specifier) (hs : s.Valid) (lim : Nat) (t : Specifier) (h : s.simplify lim = .ok t) : t.IsSimple := by
  simp only [Specifier.simplify, bind, Except.bind] at h
  cases hx : s.toSet lim with
  | error e => simp [hx] at h
  | ok x =>
    rw [hx] at h
    exact Specifier.fromSet_simple (Specifier.toSet_means hs lim x hx).1 h

/-- `^1.2 || == 3` becomes `>= 1.2, < 2.0 || == 3`. -/
example : exAny.simplify 2 = .ok (.any [.all [.one ⟨.greaterOrEqual, exVersion [1, 2]⟩, .one ⟨.less, exVersion [2, 0]⟩],
    .one ⟨.doubleEqual, exVersion [3]⟩]) := by rfl

/-- C86. `simplify` at most doubles the number of operators. -/
theorem C86_size (s : Specifier) (hs : s.Valid) (lim : Nat) (t : Specifier) (h : s.simplify lim = .ok t) :
    t.operators ≤ 2 * s.operators := by
  simp only [Specifier.simplify, bind, Except.bind] at h
  cases hx : s.toSet lim with
  | error e => simp [hx] at h
  | ok x =>
    rw [hx] at h
    have hn := (Specifier.toSet_means hs lim x hx).1
    obtain ⟨L, l1, l2⟩ := Specifier.few_toSet hs lim x hx
    exact (Specifier.operators_fromSet hn h).trans ((ends_le hn.allNormal hn.gaps l2).trans l1)

/-- The factor is the best possible: `^1 || ^3` becomes `>= 1, < 2 || >= 3, < 4`. -/
example : exCarets.Valid ∧ exCarets.operators = 2 ∧ exCarets.simplify 2 = .ok (.any [
      .all [.one ⟨.greaterOrEqual, exVersion [1]⟩, .one ⟨.less, exVersion [2]⟩],
      .all [.one ⟨.greaterOrEqual, exVersion [3]⟩, .one ⟨.less, exVersion [4]⟩]]) ∧
    (exCarets.simplify 2).toOption.map Specifier.operators = some 4 :=
  ⟨exCarets_valid, by decide +kernel, by rfl, by decide +kernel⟩

/-- C86. What `simplify` returns has at most twice as many operators as any specifier with the same set. -/
theorem C86_near_least (s s' : Specifier) (hs : s.Valid) (hs' : s'.Valid) (lim lim' : Nat) (x y : VSet) (t : Specifier)
    (hx : s.toSet lim = .ok x) (hy : s'.toSet lim' = .ok y) (hxy : x.eq y = true) (h : s.simplify lim = .ok t) :
    t.operators ≤ 2 * s'.operators := by
  simp only [Specifier.simplify, bind, Except.bind, hx] at h
  have hn := (Specifier.toSet_means hs lim x hx).1
  have hn' := (Specifier.toSet_means hs' lim' y hy).1
  obtain ⟨L, l1, l2⟩ := Specifier.few_toSet hs' lim' y hy
  have he := (eq_iff_cov hn hn').1 hxy
  exact (Specifier.operators_fromSet hn h).trans
    ((ends_le hn.allNormal hn.gaps (fun c hc => l2 c ((edge_congr he).1 hc))).trans l1)

/-- `>= 1, < 2 || == 3` has the set of `^1 || == 3`, with one operator more. -/
example :
    let s : Specifier := .any [.all [.one ⟨.greaterOrEqual, exVersion [1]⟩, .one ⟨.less, exVersion [2]⟩],
      .one ⟨.doubleEqual, exVersion [3]⟩]
    let s' : Specifier := .any [.one ⟨.caret, exVersion [1]⟩, .one ⟨.doubleEqual, exVersion [3]⟩]
    s.toSet 2 = s'.toSet 2 ∧ s.operators = 3 ∧ s'.operators = 2 ∧ s.simplify 2 = .ok s :=
  ⟨by decide +kernel, by decide +kernel, by decide +kernel, by rfl⟩

end Verif
