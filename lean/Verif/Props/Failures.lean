import Verif.Proofs.Made
import Verif.Props.SetDomain
/-!
# C88: which exceptions the constructors and conversions raise
-/

namespace Verif

/-- C88. The constructor of `VersionRange` accepts exactly the bounds in order, where an absent bound is not included, and
raises `ValueError` on everything else. -/
theorem C88_range (min max : Option Version) (includeMin includeMax : Bool) :
    let good := (min = none → includeMin = false) ∧ (max = none → includeMax = false) ∧ ∀ a b, min = some a → max = some b → a ≤ₚ b
    (good → Item.mkRange min max includeMin includeMax = .ok (.range ⟨min, max, includeMin, includeMax⟩)) ∧
    (¬ good → Item.mkRange min max includeMin includeMax = .error .valueError) := by
  intro good
  have hg : good ↔ Item.mkRange min max includeMin includeMax = .ok (.range ⟨min, max, includeMin, includeMax⟩) := by
    rw [mkRange_iff]
    simp only [good, true_and, vle_iff]
  refine ⟨hg.1, fun h => ?_⟩
  rw [hg] at h
  unfold Item.mkRange at h ⊢
  dsimp only at h ⊢
  split
  · rfl
  · split
    · rfl
    · split
      · rfl
      · rename_i h1 h2 h3
        rw [if_neg h1, if_neg h2, if_neg h3] at h
        exact absurd rfl h

example : Item.mkRange (some (exVersion [1])) (some (exVersion [2])) false true = .ok (exRange (some [1]) (some [2]) false true) ∧
    Item.mkRange (some (exVersion [1])) (some (exVersion [1, 0])) false false = .ok (.range ⟨some (exVersion [1]), some (exVersion [1, 0]), false, false⟩) ∧
    Item.mkRange (some (exVersion [2])) (some (exVersion [1])) true true = .error .valueError ∧
    Item.mkRange none (some (exVersion [1])) true true = .error .valueError := by decide +kernel

/-- C88. The constructor of `VersionUnion` raises `ValueError` on fewer than two items, and the constructors of `SpecifierAny`
and `SpecifierAll` raise `TypeError` on fewer than two specifiers; nothing else is checked. The class methods never raise. -/
theorem C88_joined (items : List Item) (l : List Specifier) :
    (2 ≤ items.length → VSet.mkUnion items = .ok (.union items)) ∧ (items.length < 2 → VSet.mkUnion items = .error .valueError) ∧
    (2 ≤ l.length → Specifier.mkAny l = .ok (.any l) ∧ Specifier.mkAll l = .ok (.all l) ∧ Specifier.anyOf l = .ok (.any l) ∧
      Specifier.allOf l = .ok (.all l)) ∧
    (l.length < 2 → Specifier.mkAny l = .error .typeError ∧ Specifier.mkAll l = .error .typeError ∧
      ∃ s t, Specifier.anyOf l = .ok s ∧ Specifier.allOf l = .ok t) := by
  refine ⟨fun h => ?_, fun h => ?_, fun h => ?_, fun h => ?_⟩
  · rcases items with _ | ⟨i, _ | ⟨j, items⟩⟩
    · simp at h
    · simp at h
    · simp [VSet.mkUnion]
  · rcases items with _ | ⟨i, _ | ⟨j, items⟩⟩
    · rfl
    · rfl
    · simp only [List.length_cons] at h; omega
  · rcases l with _ | ⟨i, _ | ⟨j, l⟩⟩
    · simp at h
    · simp at h
    · exact ⟨rfl, rfl, rfl, rfl⟩
  · rcases l with _ | ⟨i, _ | ⟨j, l⟩⟩
    · exact ⟨rfl, rfl, _, _, rfl, rfl⟩
    · exact ⟨rfl, rfl, _, _, rfl, rfl⟩
    · simp only [List.length_cons] at h; omega

example : VSet.mkUnion [exPoint [1], exPoint [2]] = .ok (.union [exPoint [1], exPoint [2]]) ∧ VSet.mkUnion [exPoint [1]] = .error .valueError := by
  decide +kernel

/-- The operators of a specifier. -/
inductive Specifier.Uses : Specifier → Operator → Prop
  | one (o : Operator) : Uses (.one o) o
  | any {l : List Specifier} {s : Specifier} {o : Operator} : s ∈ l → Uses s o → Uses (.any l) o
  | all {l : List Specifier} {s : Specifier} {o : Operator} : s ∈ l → Uses s o → Uses (.all l) o

theorem union_error {a b : VSet} (ha : a.Normal) (hb : b.Normal) {lim : Nat} {e : PyErr} (h : a.unionWith (lim + 2) b = .error e) :
    e = .recursionError := by
  by_cases hc : Clash (fun i => a.Has i ∨ b.Has i)
  · by_cases hx : (∃ r, a = .item (.range r)) ∧ ∃ v, b = .item (.point v)
    · obtain ⟨s, hs⟩ := C22_union_returns a b ha hb (.inr hx)
      rw [hs] at h; cases h
    · rw [C22_union_diverges a b ha hb hc hx] at h
      cases h; rfl
  · obtain ⟨s, hs⟩ := C22_union_returns a b ha hb (.inl hc)
    rw [hs] at h; cases h

namespace Specifier

/-- Conversion of `s` returns only if every operator of `s` translates, and fails only with `ValueError`, if some operator does
not, or with `RecursionError`. -/
def Outcome (lim : Nat) (s : Specifier) : Prop :=
  (∀ x, s.toSet lim = .ok x → ∀ o, s.Uses o → ¬ o.Broken) ∧
  ∀ e, s.toSet lim = .error e → (e = .valueError ∧ ∃ o, s.Uses o ∧ o.Broken) ∨ e = .recursionError

theorem reduceAll_outcome {lim : Nat} {l : List Specifier} (hv : ∀ s ∈ l, s.Valid) (ih : ∀ s ∈ l, s.Outcome lim) {acc : VSet} (hacc : acc.Normal) :
    (∀ x, reduceAll lim acc l = .ok x → ∀ s ∈ l, ∀ o, s.Uses o → ¬ o.Broken) ∧
    ∀ e, reduceAll lim acc l = .error e → (e = .valueError ∧ ∃ s ∈ l, ∃ o, s.Uses o ∧ o.Broken) ∨ (e = .recursionError ∧ ∃ s ∈ l, s.toSet lim = .error e) := by
  induction l generalizing acc with
  | nil => simp [reduceAll]
  | cons s l ihl =>
    obtain ⟨i1, i2⟩ := ih s (by simp)
    simp only [reduceAll, bind, Except.bind]
    cases hy : toSet lim s with
    | error e =>
      simp only [Except.error.injEq, reduceCtorEq, false_imp_iff, implies_true, true_and]
      rintro _ rfl
      rcases i2 e hy with ⟨rfl, o, h1, h2⟩ | rfl
      · exact .inl ⟨rfl, s, by simp, o, h1, h2⟩
      · exact .inr ⟨rfl, s, by simp, hy⟩
    | ok y =>
      obtain ⟨z, z1, z2, -⟩ := intersection_spec hacc (toSet_means (hv s (by simp)) lim y hy).1
      simp only [z1]
      obtain ⟨h1, h2⟩ := ihl (fun t ht => hv t (by simp [ht])) (fun t ht => ih t (by simp [ht])) z2
      refine ⟨fun x hx t ht => ?_, fun e he => ?_⟩
      · rcases List.mem_cons.1 ht with rfl | ht
        · exact i1 y hy
        · exact h1 x hx t ht
      · rcases h2 e he with ⟨rfl, t, ht, h⟩ | ⟨rfl, t, ht, h⟩
        · exact .inl ⟨rfl, t, by simp [ht], h⟩
        · exact .inr ⟨rfl, t, by simp [ht], h⟩

theorem reduceAny_outcome {lim : Nat} {l : List Specifier} (hv : ∀ s ∈ l, s.Valid) (ih : ∀ s ∈ l, s.Outcome (lim + 2)) {acc : VSet} (hacc : acc.Normal) :
    (∀ x, reduceAny (lim + 2) acc l = .ok x → ∀ s ∈ l, ∀ o, s.Uses o → ¬ o.Broken) ∧
    ∀ e, reduceAny (lim + 2) acc l = .error e → (e = .valueError ∧ ∃ s ∈ l, ∃ o, s.Uses o ∧ o.Broken) ∨ e = .recursionError := by
  induction l generalizing acc with
  | nil => simp [reduceAny]
  | cons s l ihl =>
    obtain ⟨i1, i2⟩ := ih s (by simp)
    simp only [reduceAny, bind, Except.bind]
    cases hy : toSet (lim + 2) s with
    | error e =>
      simp only [Except.error.injEq, reduceCtorEq, false_imp_iff, implies_true, true_and]
      rintro _ rfl
      rcases i2 e hy with ⟨rfl, o, h1, h2⟩ | rfl
      · exact .inl ⟨rfl, s, by simp, o, h1, h2⟩
      · exact .inr rfl
    | ok y =>
      have ny := (toSet_means (hv s (by simp)) _ y hy).1
      cases hz : acc.unionWith (lim + 2) y with
      | error e =>
        simp only [hz, Except.error.injEq, reduceCtorEq, false_imp_iff, implies_true, true_and]
        rintro _ rfl
        exact .inr (union_error hacc ny hz)
      | ok z =>
        simp only [hz]
        obtain ⟨h1, h2⟩ := ihl (fun t ht => hv t (by simp [ht])) (fun t ht => ih t (by simp [ht])) (C19_normal_closed acc y z hacc ny (lim + 2) (.inr (.inl hz)))
        refine ⟨fun x hx t ht => ?_, fun e he => ?_⟩
        · rcases List.mem_cons.1 ht with rfl | ht
          · exact i1 y hy
          · exact h1 x hx t ht
        · rcases h2 e he with ⟨rfl, t, ht, h⟩ | rfl
          · exact .inl ⟨rfl, t, by simp [ht], h⟩
          · exact .inr rfl

theorem uses_any {l : List Specifier} {o : Operator} : (any l).Uses o ↔ ∃ s ∈ l, s.Uses o :=
  ⟨fun h => by cases h with | any h1 h2 => exact ⟨_, h1, h2⟩, fun ⟨_, h1, h2⟩ => .any h1 h2⟩
theorem uses_all {l : List Specifier} {o : Operator} : (all l).Uses o ↔ ∃ s ∈ l, s.Uses o :=
  ⟨fun h => by cases h with | all h1 h2 => exact ⟨_, h1, h2⟩, fun ⟨_, h1, h2⟩ => .all h1 h2⟩

theorem outcome {s : Specifier} (hs : s.Valid) (hn : ∀ o, s.Uses o → o.version.release.NonNeg) (lim : Nat) : s.Outcome (lim + 2) := by
  induction hs with
  | never => exact ⟨fun _ _ o h => (by cases h), fun e h => by simp [toSet] at h⟩
  | always => exact ⟨fun _ _ o h => (by cases h), fun e h => by simp [toSet] at h⟩
  | @one o hv ht =>
    obtain ⟨h1, h2⟩ := C16_failure o ⟨hv, hn o (.one o), ht⟩ (lim + 2)
    refine ⟨fun x hx p hp hb => ?_, fun e he => ?_⟩
    · cases hp
      simp only [toSet] at hx
      rw [h2 hb] at hx
      cases hx
    · simp only [toSet] at he
      by_cases hb : o.Broken
      · rw [h2 hb] at he
        cases he
        exact .inl ⟨rfl, o, .one o, hb⟩
      · obtain ⟨x, hx⟩ := h1 hb
        rw [hx] at he
        cases he
  | @any l hl hv ih =>
    have ih' : ∀ s ∈ l, s.Outcome (lim + 2) := fun s hs => ih s hs fun o ho => hn o (.any hs ho)
    rcases l with _ | ⟨s, l⟩
    · simp at hl
    · obtain ⟨i1, i2⟩ := ih' s (by simp)
      unfold Outcome
      simp only [toSet, bind, Except.bind, uses_any]
      cases hy : toSet (lim + 2) s with
      | error e =>
        simp only [Except.error.injEq, reduceCtorEq, false_imp_iff, implies_true, true_and]
        rintro _ rfl
        rcases i2 e hy with ⟨rfl, o, h1, h2⟩ | rfl
        · exact .inl ⟨rfl, o, ⟨s, by simp, h1⟩, h2⟩
        · exact .inr rfl
      | ok y =>
        obtain ⟨h1, h2⟩ := reduceAny_outcome (l := l) (fun t ht => hv t (by simp [ht])) (fun t ht => ih' t (by simp [ht]))
          (toSet_means (hv s (by simp)) _ y hy).1
        refine ⟨fun x hx o => ?_, fun e he => ?_⟩
        · rintro ⟨t, ht, ho⟩
          rcases List.mem_cons.1 ht with rfl | ht
          · exact i1 y hy o ho
          · exact h1 x hx t ht o ho
        · rcases h2 e he with ⟨rfl, t, ht, o, h, h'⟩ | rfl
          · exact .inl ⟨rfl, o, ⟨t, by simp [ht], h⟩, h'⟩
          · exact .inr rfl
  | @all l hl hv ih =>
    have ih' : ∀ s ∈ l, s.Outcome (lim + 2) := fun s hs => ih s hs fun o ho => hn o (.all hs ho)
    rcases l with _ | ⟨s, l⟩
    · simp at hl
    · obtain ⟨i1, i2⟩ := ih' s (by simp)
      unfold Outcome
      simp only [toSet, bind, Except.bind, uses_all]
      cases hy : toSet (lim + 2) s with
      | error e =>
        simp only [Except.error.injEq, reduceCtorEq, false_imp_iff, implies_true, true_and]
        rintro _ rfl
        rcases i2 e hy with ⟨rfl, o, h1, h2⟩ | rfl
        · exact .inl ⟨rfl, o, ⟨s, by simp, h1⟩, h2⟩
        · exact .inr rfl
      | ok y =>
        obtain ⟨h1, h2⟩ := reduceAll_outcome (l := l) (fun t ht => hv t (by simp [ht])) (fun t ht => ih' t (by simp [ht]))
          (toSet_means (hv s (by simp)) _ y hy).1
        refine ⟨fun x hx o => ?_, fun e he => ?_⟩
        · rintro ⟨t, ht, ho⟩
          rcases List.mem_cons.1 ht with rfl | ht
          · exact i1 y hy o ho
          · exact h1 x hx t ht o ho
        · rcases h2 e he with ⟨rfl, t, ht, o, h, h'⟩ | ⟨rfl, -⟩
          · exact .inl ⟨rfl, o, ⟨t, by simp [ht], h⟩, h'⟩
          · exact .inr rfl

/-- Specifiers without alternatives: `||` nowhere inside. -/
inductive Conjunctive : Specifier → Prop
  | never : Conjunctive .never
  | always : Conjunctive .always
  | one (o : Operator) : Conjunctive (.one o)
  | all {l : List Specifier} : (∀ s ∈ l, Conjunctive s) → Conjunctive (.all l)

theorem conjunctive_error {s : Specifier} (hc : s.Conjunctive) (hs : s.Valid) (hn : ∀ o, s.Uses o → o.version.release.NonNeg) (lim : Nat) :
    s.toSet (lim + 2) ≠ .error .recursionError := by
  induction hc with
  | never => simp [toSet]
  | always => simp [toSet]
  | one o =>
    cases hs with
    | one hv ht =>
      simp only [toSet]
      obtain ⟨h1, h2⟩ := C16_failure o ⟨hv, hn o (.one o), ht⟩ (lim + 2)
      by_cases hb : o.Broken
      · rw [h2 hb]; simp
      · obtain ⟨x, hx⟩ := h1 hb
        rw [hx]; simp
  | @all l _ ih =>
    cases hs with
    | all hl hv =>
      have ih' : ∀ s ∈ l, s.toSet (lim + 2) ≠ .error .recursionError := fun s hs => ih s hs (hv s hs) fun o ho => hn o (.all hs ho)
      have io : ∀ s ∈ l, s.Outcome (lim + 2) := fun s hs => outcome (hv s hs) (fun o ho => hn o (.all hs ho)) lim
      rcases l with _ | ⟨s, l⟩
      · simp at hl
      · simp only [toSet, bind, Except.bind]
        cases hy : toSet (lim + 2) s with
        | error e =>
          have := ih' s (by simp)
          rw [hy] at this
          simpa using this
        | ok y =>
          intro he
          rcases (reduceAll_outcome (l := l) (fun t ht => hv t (by simp [ht])) (fun t ht => io t (by simp [ht]))
            (toSet_means (hv s (by simp)) _ y hy).1).2 _ he with ⟨h, -⟩ | ⟨-, t, ht, h⟩
          · cases h
          · exact ih' t (by simp [ht]) h

end Specifier

/-- C88. Converting a specifier to a set returns only if each of its operators translates. It fails only with `ValueError`,
and then one of its operators is broken, or with `RecursionError`. -/
theorem C88_conversion (s : Specifier) (hs : s.Valid) (hn : ∀ o, s.Uses o → o.version.release.NonNeg) (lim : Nat) :
    (∀ x, s.toSet (lim + 2) = .ok x → ∀ o, s.Uses o → ¬ o.Broken) ∧
    ∀ e, s.toSet (lim + 2) = .error e → (e = .valueError ∧ ∃ o, s.Uses o ∧ o.Broken) ∨ e = .recursionError :=
  Specifier.outcome hs hn lim

/-- C88. Without alternatives, it returns exactly if each operator translates, and raises `ValueError` otherwise. -/
theorem C88_conjunctive (s : Specifier) (hs : s.Valid) (hc : s.Conjunctive) (hn : ∀ o, s.Uses o → o.version.release.NonNeg) (lim : Nat) :
    ((∃ x, s.toSet (lim + 2) = .ok x) ↔ ∀ o, s.Uses o → ¬ o.Broken) ∧
    (s.toSet (lim + 2) = .error .valueError ↔ ∃ o, s.Uses o ∧ o.Broken) := by
  obtain ⟨h1, h2⟩ := Specifier.outcome hs hn lim
  have h3 := Specifier.conjunctive_error hc hs hn lim
  cases hx : s.toSet (lim + 2) with
  | ok x =>
    have := h1 x hx
    simp only [Except.ok.injEq, exists_eq', true_iff, reduceCtorEq, false_iff]
    exact ⟨this, fun ⟨o, ho, hb⟩ => this o ho hb⟩
  | error e =>
    rcases h2 e hx with ⟨rfl, o, ho, hb⟩ | rfl
    · simp only [reduceCtorEq, exists_false, false_iff, true_iff]
      exact ⟨fun h => h o ho hb, o, ho, hb⟩
    · exact absurd hx h3

/-- The hypotheses, and all three outcomes: `== 1 || > 1`, `~1.0.post1.dev0, < 9` and `~1.0, < 9`. -/
example : (Specifier.any [.one ⟨.doubleEqual, exVersion [1]⟩, .one ⟨.greater, exVersion [1]⟩]).toSet 5 = .error .recursionError ∧
    (Specifier.all [.one ⟨.tilde, exVersion [1, 0] none (some postTag) (some devTag)⟩, .one ⟨.less, exVersion [9]⟩]).toSet 5 = .error .valueError ∧
    (Specifier.all [.one ⟨.tilde, exVersion [1, 0]⟩, .one ⟨.less, exVersion [9]⟩]).toSet 5 = .ok (.item (exRange (some [1, 0]) (some [1, 1]))) ∧
    (Specifier.all [.one ⟨.tilde, exVersion [1, 0]⟩, .one ⟨.less, exVersion [9]⟩]).Valid ∧
    (Specifier.all [.one ⟨.tilde, exVersion [1, 0]⟩, .one ⟨.less, exVersion [9]⟩]).Conjunctive := by
  refine ⟨by decide +kernel, by decide +kernel, by decide +kernel, C52_valid "~1.0,<9".toList _ (by rfl), .all fun s hs => ?_⟩
  simp only [List.mem_cons, List.not_mem_nil, or_false] at hs
  rcases hs with rfl | rfl <;> exact .one _

theorem uses_ofAny {gs : List (List Operator)} {o : Operator} (h : (Specifier.ofAny gs).Uses o) : ∃ g ∈ gs, o ∈ g := by
  have hall : ∀ g, (Specifier.ofAll g).Uses o → o ∈ g := by
    intro g hg
    have hm : (Specifier.all (g.map .one)).Uses o → o ∈ g := by
      intro h
      obtain ⟨s, hs, h⟩ := Specifier.uses_all.1 h
      obtain ⟨p, hp, rfl⟩ := List.mem_map.1 hs
      cases h
      exact hp
    rcases g with _ | ⟨a, _ | ⟨b, g⟩⟩
    · exact hm hg
    · cases hg; simp
    · exact hm hg
  have hany : (Specifier.any (gs.map .ofAll)).Uses o → ∃ g ∈ gs, o ∈ g := by
    intro h
    obtain ⟨s, hs, h⟩ := Specifier.uses_any.1 h
    obtain ⟨g, hg, rfl⟩ := List.mem_map.1 hs
    exact ⟨g, hg, hall g h⟩
  rcases gs with _ | ⟨a, _ | ⟨b, gs⟩⟩
  · exact hany h
  · exact ⟨a, by simp, hall a h⟩
  · exact hany h

/-- C88. `parse_version_set` fails only with the three errors of `parse_specifier` and with `RecursionError`, the last only
on strings with alternatives. -/
theorem C88_parse (lim : Nat) (s : PyStr) (e : PyErr) (h : VSet.parse (lim + 2) s = .error e) :
    e = .parseSpecificationError ∨ e = .parseVersionError ∨ e = .valueError ∨
      (e = .recursionError ∧ '|' ∈ s ∧ ∃ x, Specifier.parse s = .ok x) := by
  unfold VSet.parse at h
  rcases C51_errors s with ⟨x, hx⟩ | hx | hx | hx
  · obtain ⟨gs, hg, rfl⟩ := (Specifier.parse_ok_iff' s x).1 hx
    have hn : ∀ o, (Specifier.ofAny gs).Uses o → o.version.release.NonNeg := by
      intro o ho
      obtain ⟨g, hgs, hog⟩ := uses_ofAny ho
      obtain ⟨_, l, -, h2⟩ := hg
      obtain ⟨w, -, b, m, -, hw⟩ := forall₂_right h2 hgs
      obtain ⟨w, -, hw⟩ := forall₂_right hw hog
      exact (Specifier.single_valid hw).2.release
    rw [hx] at h
    by_cases hp : '|' ∈ s
    · rcases (C88_conversion _ (Specifier.ofAny_valid hg) hn lim).2 e h with ⟨rfl, -⟩ | rfl
      · exact .inr (.inr (.inl rfl))
      · exact .inr (.inr (.inr ⟨rfl, hp, _, hx⟩))
    · obtain ⟨l, rfl, -⟩ := hg.single (fun h => hp (List.mem_filter.1 h).1)
      have hc : (Specifier.ofAny [l]).Conjunctive := by
        rcases l with _ | ⟨a, _ | ⟨b, l⟩⟩
        · exact .all fun s hs => by simp at hs
        · exact .one a
        · refine .all fun s hs => ?_
          obtain ⟨o, -, rfl⟩ := List.mem_map.1 hs
          exact .one o
      rcases (C88_conversion _ (Specifier.ofAny_valid hg) hn lim).2 e h with ⟨rfl, -⟩ | rfl
      · exact .inr (.inr (.inl rfl))
      · exact absurd h (Specifier.conjunctive_error hc (Specifier.ofAny_valid hg) hn lim)
  all_goals
    rw [hx] at h
    cases h
    simp

example : VSet.parse 5 "== 1 | > 1".toList = .error .recursionError ∧ VSet.parse 5 "=> 1".toList = .error .parseSpecificationError ∧
    VSet.parse 5 "~= 1".toList = .error .valueError ∧ VSet.parse 5 "< 1 | ~1.0.post1.dev0".toList = .error .valueError := by decide +kernel

end Verif
