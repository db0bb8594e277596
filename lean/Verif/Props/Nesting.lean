import Verif.Proofs.Nesting
import Verif.Props.Simplify
import Verif.Props.SpecGrammar
/-!
# Nested specifiers and the limit on nested calls (C119)
-/

namespace Verif
open Specifier

/-- C119. When `n` nested calls fit, `to_string`, `to_short_string` and `hash` return what they return without a limit if the
specifier is nested no deeper than `n`, and raise `RecursionError` otherwise. -/
theorem C119_strings (H : Hasher) (n : Nat) (s : Specifier) :
    (s.depth ≤ n → s.toStrIn n = .ok s.toStr ∧ s.toShortStrIn n = .ok s.toShortStr ∧ s.hashIn H n = .ok (H.specifier s)) ∧
    (n < s.depth → s.toStrIn n = .error .recursionError ∧ s.toShortStrIn n = .error .recursionError ∧
      s.hashIn H n = .error .recursionError) := by
  rw [toStrIn_eq, toShortStrIn_eq, hashIn_eq]
  constructor
  · intro h; simp [h]
  · intro h; simp [Nat.not_le.2 h]

example : (Specifier.all [.one ⟨.caret, exVersion [1]⟩, .any [.never, .one ⟨.less, exVersion [2]⟩]]).toStrIn 3 = .ok "(^1, (0 || < 2))".toList ∧
    (Specifier.all [.one ⟨.caret, exVersion [1]⟩, .any [.never, .one ⟨.less, exVersion [2]⟩]]).toStrIn 2 = .error .recursionError := by
  decide +kernel

/-- C119. `accepts` returns what it returns without a limit if the specifier is nested no deeper than `n`, and otherwise
returns that or raises `RecursionError`. -/
theorem C119_accepts (n : Nat) (s : Specifier) (v : Version) :
    (s.depth ≤ n → s.acceptsIn n v = s.accepts v) ∧
      (s.acceptsIn n v = s.accepts v ∨ s.acceptsIn n v = .error .recursionError) :=
  ⟨acceptsIn_eq v n s, acceptsIn_or v n s⟩

example : (Specifier.all [.never, .any [.always, .always]]).acceptsIn 2 (exVersion [1]) = .ok false ∧
    (Specifier.all [.any [.always, .always], .never]).acceptsIn 2 (exVersion [1]) = .error .recursionError ∧
    (Specifier.all [.any [.always, .always], .never]).acceptsIn 3 (exVersion [1]) = .ok false := by decide +kernel

/-- C119. `specifier_to_version_set` returns what it returns without a limit if the specifier is nested no deeper than `n`. -/
theorem C119_converts (n lim : Nat) (s : Specifier) (h : s.depth ≤ n) : s.toSetIn lim n = s.toSet lim := toSetIn_eq lim n s h

example : exAny.toSetIn 5 2 = .ok (.union [exRange (some [1, 2]) (some [2, 0]), exPoint [3]]) ∧
    exAny.toSetIn 5 1 = .error .recursionError := by decide +kernel

/-- C119. A specifier that was read from a string needs no more than three nested calls, however long the string. -/
theorem C119_read (H : Hasher) (s : PyStr) (x : Specifier) (h : Specifier.parse s = .ok x) (lim : Nat) (v : Version) :
    x.toStrIn 3 = .ok x.toStr ∧ x.toShortStrIn 3 = .ok x.toShortStr ∧ x.hashIn H 3 = .ok (H.specifier x) ∧
      x.acceptsIn 3 v = x.accepts v ∧ x.toSetIn lim 3 = x.toSet lim := by
  obtain ⟨gs, -, rfl⟩ := (C50_grammar s x).1 h
  have hd := depth_ofAny gs
  obtain ⟨h1, h2, h3⟩ := (C119_strings H 3 _).1 hd
  exact ⟨h1, h2, h3, (C119_accepts 3 _ v).1 hd, C119_converts 3 lim _ hd⟩

/-- Three are needed. -/
example : ((Specifier.parse "^1, != 1.5 || == 3".toList).bind fun x => x.toStrIn 2) = .error .recursionError ∧
    ((Specifier.parse "^1, != 1.5 || == 3".toList).bind fun x => x.toStrIn 3) = .ok "((^1, != 1.5) || == 3)".toList := by
  decide +kernel

/-- C119. Nor does one that `simplify` or `version_set_to_specifier` returned. -/
theorem C119_simplified (H : Hasher) (t : Specifier) (lim : Nat)
    (h : (∃ s : Specifier, s.Valid ∧ s.simplify lim = .ok t) ∨ ∃ x : VSet, x.Normal ∧ Specifier.fromSet lim x = .ok t) (v : Version) (lim' : Nat) :
    t.toStrIn 3 = .ok t.toStr ∧ t.toShortStrIn 3 = .ok t.toShortStr ∧ t.hashIn H 3 = .ok (H.specifier t) ∧
      t.acceptsIn 3 v = t.accepts v ∧ t.toSetIn lim' 3 = t.toSet lim' := by
  have hd : t.depth ≤ 3 := by
    rcases h with ⟨s, hs, h⟩ | ⟨x, hx, h⟩
    · exact (C86_shape s hs lim t h).depth
    · exact (fromSet_simple hx h).depth
  obtain ⟨h1, h2, h3⟩ := (C119_strings H 3 _).1 hd
  exact ⟨h1, h2, h3, (C119_accepts 3 _ v).1 hd, C119_converts 3 lim' _ hd⟩

example (H : Hasher) (v : Version) : ∃ t, exAny.simplify 5 = .ok t ∧ t.hashIn H 3 = .ok (H.specifier t) ∧ t.hashIn H 2 = .error .recursionError ∧
    t.acceptsIn 3 v = t.accepts v :=
  ⟨.any [.all [.one ⟨.greaterOrEqual, exVersion [1, 2]⟩, .one ⟨.less, exVersion [2, 0]⟩], .one ⟨.doubleEqual, exVersion [3]⟩], rfl, rfl, rfl,
    (C119_simplified H _ 5 (.inl ⟨exAny, exAny_valid, rfl⟩) v 5).2.2.2.1⟩

/-- No call of a method of the specifier returns when `k` nested calls fit, or fewer. -/
def Specifier.Blocked (k : Nat) (x : Specifier) : Prop :=
  ∀ n, n ≤ k → (∀ v, x.acceptsIn n v = .error .recursionError) ∧ x.toStrIn n = .error .recursionError ∧
    x.toShortStrIn n = .error .recursionError ∧ (∀ H, x.hashIn H n = .error .recursionError) ∧
    ∀ lim, x.toSetIn lim n = .error .recursionError

theorem Specifier.blocked_zero (x : Specifier) : x.Blocked 0 := by
  intro n hn
  obtain rfl : n = 0 := by omega
  exact ⟨fun _ => rfl, rfl, rfl, fun _ => rfl, fun _ => rfl⟩

theorem Specifier.Blocked.all {k : Nat} {x : Specifier} (h : x.Blocked k) (t : Specifier) : (Specifier.all [x, t]).Blocked (k + 1) := by
  rintro (_ | n) hn
  · exact blocked_zero _ 0 (by omega)
  · obtain ⟨h1, h2, h3, h4, h5⟩ := h n (by omega)
    refine ⟨fun v => ?_, ?_, ?_, fun H => ?_, fun lim => ?_⟩
    · simp [acceptsIn, allCalls, h1 v, bind, Except.bind]
    · simp [toStrIn, eachCall, h2, bind, Except.bind]
    · simp [toShortStrIn, eachCall, h3, bind, Except.bind]
    · simp [hashIn, eachCall, h4 H, bind, Except.bind]
    · simp [toSetIn, h5 lim, bind, Except.bind]

theorem Specifier.Blocked.any {k : Nat} {x : Specifier} (h : x.Blocked k) (t : Specifier) : (Specifier.any [x, t]).Blocked (k + 1) := by
  rintro (_ | n) hn
  · exact blocked_zero _ 0 (by omega)
  · obtain ⟨h1, h2, h3, h4, h5⟩ := h n (by omega)
    refine ⟨fun v => ?_, ?_, ?_, fun H => ?_, fun lim => ?_⟩
    · simp [acceptsIn, anyCalls, h1 v, bind, Except.bind]
    · simp [toStrIn, eachCall, h2, bind, Except.bind]
    · simp [toShortStrIn, eachCall, h3, bind, Except.bind]
    · simp [hashIn, eachCall, h4 H, bind, Except.bind]
    · simp [toSetIn, h5 lim, bind, Except.bind]

theorem allAccepts_append (v : Version) : ∀ l m : List Specifier,
    allAccepts (l ++ m) v = (do if ← allAccepts l v then allAccepts m v else .ok false)
  | [], m => by simp [allAccepts, bind, Except.bind]
  | a :: l, m => by
    rw [List.cons_append, allAccepts, allAccepts, allAccepts_append v l m]
    rcases accepts a v with e | b
    · rfl
    · cases b <;> rfl

theorem anyAccepts_append (v : Version) : ∀ l m : List Specifier,
    anyAccepts (l ++ m) v = (do if ← anyAccepts l v then .ok true else anyAccepts m v)
  | [], m => by simp [anyAccepts, bind, Except.bind]
  | a :: l, m => by
    rw [List.cons_append, anyAccepts, anyAccepts, anyAccepts_append v l m]
    rcases accepts a v with e | b
    · rfl
    · cases b <;> rfl

/-- C119, violation. A program that adds requirements one at a time,
`for t in l: specifier = SpecifierAll.of(specifier, t)`, ends with a specifier that accepts what `SpecifierAll.of` on all of
them at once accepts, but of which no method returns unless more than `len(l)` nested calls fit. -/
theorem C119_folded_all (s : Specifier) (l : List Specifier) :
    ∃ x y, l.foldlM (fun acc t => Specifier.allOf [acc, t]) s = .ok x ∧ Specifier.allOf (s :: l) = .ok y ∧
      (∀ v, x.accepts v = y.accepts v) ∧ x.Blocked l.length ∧ y.depth ≤ depthAll (s :: l) + 1 := by
  have key : ∀ (l done : List Specifier) (x : Specifier) (k : Nat), x.Blocked k → (∀ v, x.accepts v = allAccepts done v) →
      ∃ z, l.foldlM (fun acc t => Specifier.allOf [acc, t]) x = .ok z ∧ (∀ v, z.accepts v = allAccepts (done ++ l) v) ∧ z.Blocked (k + l.length) := by
    intro l
    induction l with
    | nil => intro done x k hb ha; exact ⟨x, rfl, by simpa using ha, by simpa using hb⟩
    | cons t l ih =>
      intro done x k hb ha
      obtain ⟨z, h1, h2, h3⟩ := ih (done ++ [t]) (.all [x, t]) (k + 1) (hb.all t) (fun v => by
        rw [allAccepts_append, accepts, allAccepts, ha v])
      exact ⟨z, h1, fun v => by rw [h2]; simp, by rw [List.length_cons, Nat.add_comm l.length 1, ← Nat.add_assoc]; exact h3⟩
  obtain ⟨z, h1, h2, h3⟩ := key l [s] s 0 (blocked_zero s) fun v => by
    rw [allAccepts, allAccepts]
    rcases accepts s v with e | b
    · rfl
    · cases b <;> rfl
  rw [Nat.zero_add] at h3
  cases l with
  | nil =>
    refine ⟨z, s, h1, rfl, fun v => ?_, h3, by simp [depthAll]⟩
    have : z = s := by simpa [pure, Except.pure] using h1.symm
    rw [this]
  | cons t l => exact ⟨z, .all (s :: t :: l), h1, rfl, fun v => by rw [h2, accepts]; rfl, h3, by simp [depth]⟩

/-- `>= 1`, then `!= 1.5`, then `< 2`. -/
example : ([.one ⟨.notEqual, exVersion [1, 5]⟩, .one ⟨.less, exVersion [2]⟩] : List Specifier).foldlM (fun acc t => Specifier.allOf [acc, t])
      (.one ⟨.greaterOrEqual, exVersion [1]⟩) =
      .ok (.all [.all [.one ⟨.greaterOrEqual, exVersion [1]⟩, .one ⟨.notEqual, exVersion [1, 5]⟩], .one ⟨.less, exVersion [2]⟩]) ∧
    (Specifier.all [.all [.one ⟨.greaterOrEqual, exVersion [1]⟩, .one ⟨.notEqual, exVersion [1, 5]⟩], .one ⟨.less, exVersion [2]⟩]).acceptsIn 2 (exVersion [0])
      = .error .recursionError ∧
    (Specifier.all [.one ⟨.greaterOrEqual, exVersion [1]⟩, .one ⟨.notEqual, exVersion [1, 5]⟩, .one ⟨.less, exVersion [2]⟩]).acceptsIn 2 (exVersion [0])
      = .ok false := ⟨rfl, by decide +kernel, by decide +kernel⟩

/-- C119, violation. The same with `SpecifierAny.of`. -/
theorem C119_folded_any (s : Specifier) (l : List Specifier) :
    ∃ x y, l.foldlM (fun acc t => Specifier.anyOf [acc, t]) s = .ok x ∧ Specifier.anyOf (s :: l) = .ok y ∧
      (∀ v, x.accepts v = y.accepts v) ∧ x.Blocked l.length ∧ y.depth ≤ depthAll (s :: l) + 1 := by
  have key : ∀ (l done : List Specifier) (x : Specifier) (k : Nat), x.Blocked k → (∀ v, x.accepts v = anyAccepts done v) →
      ∃ z, l.foldlM (fun acc t => Specifier.anyOf [acc, t]) x = .ok z ∧ (∀ v, z.accepts v = anyAccepts (done ++ l) v) ∧ z.Blocked (k + l.length) := by
    intro l
    induction l with
    | nil => intro done x k hb ha; exact ⟨x, rfl, by simpa using ha, by simpa using hb⟩
    | cons t l ih =>
      intro done x k hb ha
      obtain ⟨z, h1, h2, h3⟩ := ih (done ++ [t]) (.any [x, t]) (k + 1) (hb.any t) (fun v => by
        rw [anyAccepts_append, accepts, anyAccepts, ha v])
      exact ⟨z, h1, fun v => by rw [h2]; simp, by rw [List.length_cons, Nat.add_comm l.length 1, ← Nat.add_assoc]; exact h3⟩
  obtain ⟨z, h1, h2, h3⟩ := key l [s] s 0 (blocked_zero s) fun v => by
    rw [anyAccepts, anyAccepts]
    rcases accepts s v with e | b
    · rfl
    · cases b <;> rfl
  rw [Nat.zero_add] at h3
  cases l with
  | nil =>
    refine ⟨z, s, h1, rfl, fun v => ?_, h3, by simp [depthAll]⟩
    have : z = s := by simpa [pure, Except.pure] using h1.symm
    rw [this]
  | cons t l => exact ⟨z, .any (s :: t :: l), h1, rfl, fun v => by rw [h2, accepts]; rfl, h3, by simp [depth]⟩

example : ([.one ⟨.equal, exVersion [1, 5]⟩, .one ⟨.less, exVersion [1]⟩] : List Specifier).foldlM (fun acc t => Specifier.anyOf [acc, t])
      (.one ⟨.caret, exVersion [2]⟩) =
      .ok (.any [.any [.one ⟨.caret, exVersion [2]⟩, .one ⟨.equal, exVersion [1, 5]⟩], .one ⟨.less, exVersion [1]⟩]) ∧
    (Specifier.any [.any [.one ⟨.caret, exVersion [2]⟩, .one ⟨.equal, exVersion [1, 5]⟩], .one ⟨.less, exVersion [1]⟩]).toSetIn 5 2
      = .error .recursionError ∧
    (Specifier.any [.one ⟨.caret, exVersion [2]⟩, .one ⟨.equal, exVersion [1, 5]⟩, .one ⟨.less, exVersion [1]⟩]).toSetIn 5 2
      = .ok (.union [exRange none (some [1]) false, exPoint [1, 5], exRange (some [2]) (some [3])]) := ⟨rfl, by decide +kernel, by decide +kernel⟩

/-- C119, violation. With the new requirement in front, `specifier = SpecifierAll.of(t, specifier)`, whether `accepts`
returns depends on the version: a version that every added requirement accepts needs more than `len(l)` nested calls, and one
that the last added requirement does not accept needs one more than that requirement. -/
theorem C119_folded_front (s : Specifier) (l : List Specifier) :
    ∃ x, l.foldlM (fun acc t => Specifier.allOf [t, acc]) s = .ok x ∧
      (∀ v, (∀ t ∈ l, t.accepts v = .ok true) → ∀ n, n ≤ l.length → x.acceptsIn n v = .error .recursionError) ∧
      (∀ v t, l.getLast? = some t → t.accepts v = .ok false → ∀ n, t.depth + 1 ≤ n → x.acceptsIn n v = .ok false) ∧
      ∀ n, n ≤ l.length → x.toStrIn n = .error .recursionError := by
  have grow : ∀ (t x : Specifier) (k : Nat) (v : Version), t.accepts v = .ok true → (∀ n, n ≤ k → x.acceptsIn n v = .error .recursionError) →
      ∀ n, n ≤ k + 1 → (Specifier.all [t, x]).acceptsIn n v = .error .recursionError := by
    rintro t x k v ht hx (_ | n) hn
    · rfl
    · rw [acceptsIn, allCalls, allCalls]
      rcases acceptsIn_or v n t with e | e
      · simp [e, ht, hx n (by omega), bind, Except.bind]
      · simp [e, bind, Except.bind]
  induction l using List.reverseRecOn with
  | nil =>
    refine ⟨s, rfl, fun v _ n hn => ?_, by simp, fun n hn => ?_⟩ <;>
    · obtain rfl : n = 0 := by simpa using hn
      rfl
  | append_singleton l t ih =>
    obtain ⟨x, h1, h2, -, h4⟩ := ih
    refine ⟨.all [t, x], ?_, fun v hv n hn => ?_, fun v t' ht hf n hn => ?_, fun n hn => ?_⟩
    · rw [List.foldlM_append, h1]; rfl
    · exact grow t x l.length v (hv t (by simp)) (h2 v fun u hu => hv u (by simp [hu])) n (by simpa using hn)
    · obtain rfl : t = t' := by simpa using ht
      obtain ⟨m, rfl⟩ : ∃ m, n = m + 1 := ⟨n - 1, by omega⟩
      rw [acceptsIn, allCalls, acceptsIn_eq v m t (by omega), hf]
      rfl
    · have hx : l.length < x.depth := by
        have := h4 l.length le_rfl
        rw [toStrIn_eq] at this
        by_contra hc
        simp [Nat.not_lt.1 hc] at this
      rw [toStrIn_eq, if_neg]
      have : x.depth + 1 ≤ (Specifier.all [t, x]).depth := by simp [depth, depthAll]
      simp only [List.length_append, List.length_singleton] at hn
      omega

/-- `< 2` in front of `!= 1.5` in front of `>= 1`: 3 is refused by the first, 1.2 needs three nested calls. -/
example : (Specifier.all [.one ⟨.less, exVersion [2]⟩, .all [.one ⟨.notEqual, exVersion [1, 5]⟩, .one ⟨.greaterOrEqual, exVersion [1]⟩]]).acceptsIn 2 (exVersion [3])
      = .ok false ∧
    (Specifier.all [.one ⟨.less, exVersion [2]⟩, .all [.one ⟨.notEqual, exVersion [1, 5]⟩, .one ⟨.greaterOrEqual, exVersion [1]⟩]]).acceptsIn 2 (exVersion [1, 2])
      = .error .recursionError := by decide +kernel

end Verif
