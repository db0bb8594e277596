import Verif.Proofs.CacheReuse
import Verif.Props.Congruence
import Verif.Props.Hash
/-!
# A conversion that raised raises again
-/

namespace Verif

theorem broken_congr {o p : Operator} (ho : o.Valid) (hp : p.Valid) (h : o.eq p = true) : o.Broken → p.Broken := by
  obtain ⟨t, a⟩ := o
  obtain ⟨u, b⟩ := p
  simp only [Operator.eq, Bool.and_eq_true, Specifier.opType_eq_iff] at h
  have hc := SameContent.of_eq ho.version hp.version h.2
  have ht := h.1
  rintro ⟨⟨h1, h2, h3⟩, h4⟩
  refine ⟨⟨hc.pre ▸ h1, hc.post ▸ h2, hc.dev ▸ h3⟩, ?_⟩
  simp only [hc.part 0] at h4
  simp only
  clear hc h ho hp h1 h2 h3
  rcases h4 with ⟨rfl, h4⟩ | rfl | rfl | rfl | rfl <;> cases u <;> simp_all only [reduceCtorEq, or_false, or_true, and_true, false_and]

/-- Equal operators fail alike. -/
theorem operator_error {o p : Operator} (ho : o.Valid) (hp : p.Valid) (h : o.eq p = true) {lim : Nat} {x : VSet} {e : PyErr}
    (hx : p.toSet lim = .ok x) (he : o.toSet lim = .error e) : False := by
  by_cases hb : o.Broken
  · rw [(C16_failure p hp lim).2 (broken_congr ho hp h hb)] at hx
    cases hx
  · obtain ⟨y, hy⟩ := (C16_failure o ho lim).1 hb
    rw [hy] at he
    cases he

namespace Specifier
section
variable (H : Hasher) (lim : Nat)

/-- What the cache holds. -/
abbrev holds (c : Cache Specifier VSet) (s : Specifier) : Option VSet := Cache.found H.specifier Specifier.eq c s

/-- The one cache holds what the other does. -/
def Extends (c d : Cache Specifier VSet) : Prop := ∀ s x, holds H c s = some x → holds H d s = some x

/-- The sets held for the specifiers have the intersection `x` with `acc`. -/
def ReducesAll (c : Cache Specifier VSet) : VSet → List Specifier → VSet → Prop
  | acc, [], x => x = acc
  | acc, s :: rest, x => ∃ y z, holds H c s = some y ∧ acc.intersection lim y = .ok z ∧ ReducesAll c z rest x

/-- The sets held for the specifiers have the union `x` with `acc`. -/
def ReducesAny (c : Cache Specifier VSet) : VSet → List Specifier → VSet → Prop
  | acc, [], x => x = acc
  | acc, s :: rest, x => ∃ y z, holds H c s = some y ∧ acc.unionWith lim y = .ok z ∧ ReducesAny c z rest x

/-- Where the set comes from. -/
def Explained (c : Cache Specifier VSet) : Specifier → VSet → Prop
  | .never, _ => True
  | .always, _ => True
  | .one o, x => o.toSet lim = .ok x
  | .all [], _ => False
  | .all (s :: rest), x => ∃ y, holds H c s = some y ∧ ReducesAll H lim c y rest x
  | .any [], _ => False
  | .any (s :: rest), x => ∃ y, holds H c s = some y ∧ ReducesAny H lim c y rest x

variable {H lim}

theorem Extends.refl (c : Cache Specifier VSet) : Extends H c c := fun _ _ h => h
theorem Extends.trans {c d e : Cache Specifier VSet} (h : Extends H c d) (g : Extends H d e) : Extends H c e := fun s x hs => g s x (h s x hs)

theorem ReducesAll.mono {c d : Cache Specifier VSet} (h : Extends H c d) : ∀ {l : List Specifier} {acc x : VSet},
    ReducesAll H lim c acc l x → ReducesAll H lim d acc l x
  | [], _, _, hx => hx
  | _ :: _, _, _, ⟨y, z, h1, h2, h3⟩ => ⟨y, z, h _ _ h1, h2, h3.mono h⟩

theorem ReducesAny.mono {c d : Cache Specifier VSet} (h : Extends H c d) : ∀ {l : List Specifier} {acc x : VSet},
    ReducesAny H lim c acc l x → ReducesAny H lim d acc l x
  | [], _, _, hx => hx
  | _ :: _, _, _, ⟨y, z, h1, h2, h3⟩ => ⟨y, z, h _ _ h1, h2, h3.mono h⟩

theorem Explained.mono {c d : Cache Specifier VSet} (h : Extends H c d) {s : Specifier} {x : VSet} (hx : Explained H lim c s x) :
    Explained H lim d s x := by
  cases s with
  | never => trivial
  | always => trivial
  | one o => exact hx
  | all l => cases l with
    | nil => exact hx
    | cons s l => obtain ⟨y, h1, h2⟩ := hx; exact ⟨y, h _ _ h1, h2.mono h⟩
  | any l => cases l with
    | nil => exact hx
    | cons s l => obtain ⟨y, h1, h2⟩ := hx; exact ⟨y, h _ _ h1, h2.mono h⟩

mutual
/-- The number of nodes. -/
def weight : Specifier → Nat
  | .never => 1
  | .always => 1
  | .one _ => 1
  | .any l => 1 + weights l
  | .all l => 1 + weights l
def weights : List Specifier → Nat
  | [] => 0
  | s :: l => weight s + weights l
end

mutual
theorem eq_weight : ∀ s t : Specifier, s.eq t = true → s.weight = t.weight
  | .never, t, h => by cases t <;> simp [Specifier.eq, weight] at h ⊢
  | .always, t, h => by cases t <;> simp [Specifier.eq, weight] at h ⊢
  | .one o, t, h => by cases t <;> simp [Specifier.eq, weight] at h ⊢
  | .any l, t, h => by
    cases t <;> simp [Specifier.eq, weight] at h ⊢
    exact eqList_weight l _ h
  | .all l, t, h => by
    cases t <;> simp [Specifier.eq, weight] at h ⊢
    exact eqList_weight l _ h
theorem eqList_weight : ∀ l m : List Specifier, eqList l m = true → weights l = weights m
  | [], m, h => by cases m <;> simp [eqList] at h ⊢
  | s :: l, m, h => by
    cases m with
    | nil => simp [eqList] at h
    | cons t m =>
      simp only [eqList, Bool.and_eq_true] at h
      simp only [weights, eq_weight s t h.1, eqList_weight l m h.2]
end

variable (H) in
/-- The computation adds no entry for `k`. -/
def Spares {γ : Type} (k : Specifier) (m : Cached Specifier VSet γ) : Prop := ∀ c, holds H c k = none → holds H (m c).2 k = none

theorem Spares.pure {γ : Type} {k : Specifier} (r : Except PyErr γ) : Spares H k (Cached.pure r) := fun _ h => h

theorem Spares.andThen {γ δ : Type} {k : Specifier} {m : Cached Specifier VSet γ} {f : γ → Cached Specifier VSet δ} (h : Spares H k m)
    (hf : ∀ x, Spares H k (f x)) : Spares H k (m.andThen f) := by
  intro c hc
  have h1 := h c hc
  unfold Cached.andThen
  rcases hm : m c with ⟨e, c'⟩
  rw [hm] at h1
  cases e with
  | error e => exact h1
  | ok y => exact hf y c' h1

theorem Spares.wrap {k s : Specifier} (hk : s.eq k = false) {body : Cached Specifier VSet VSet} (h : Spares H k body) :
    Spares H k (Cached.wrap H.specifier Specifier.eq s body) := by
  intro c hc
  have h1 := h c hc
  unfold Cached.wrap
  split
  · exact hc
  · rcases hm : body c with ⟨e, c'⟩
    rw [hm] at h1
    cases e with
    | error e => exact h1
    | ok y =>
      show Cache.found H.specifier Specifier.eq ((s, y) :: c') k = none
      unfold Cache.found
      rw [List.find?_cons_of_neg]
      · exact h1
      · simp [hk]

theorem lighter {s k : Specifier} (h : s.weight < k.weight) : s.eq k = false := by
  rw [← Bool.not_eq_true]
  intro he
  have := eq_weight s k he
  omega

mutual
theorem toSet_spares (k : Specifier) : ∀ s : Specifier, s.weight < k.weight → Spares H k (toSetCached H lim s)
  | .one o, h => by unfold toSetCached; exact .wrap (lighter h) (.pure _)
  | .never, h => by unfold toSetCached; exact .wrap (lighter h) (.pure _)
  | .always, h => by unfold toSetCached; exact .wrap (lighter h) (.pure _)
  | .all l, h => by
    unfold toSetCached
    refine .wrap (lighter h) ?_
    match l with
    | [] => exact .pure _
    | s :: rest =>
      simp only [weight, weights] at h
      exact (toSet_spares k s (by omega)).andThen fun x => reduceAll_spares k rest (by omega) x
  | .any l, h => by
    unfold toSetCached
    refine .wrap (lighter h) ?_
    match l with
    | [] => exact .pure _
    | s :: rest =>
      simp only [weight, weights] at h
      exact (toSet_spares k s (by omega)).andThen fun x => reduceAny_spares k rest (by omega) x
theorem reduceAll_spares (k : Specifier) : ∀ (l : List Specifier), weights l < k.weight → ∀ acc : VSet, Spares H k (reduceAllCached H lim acc l)
  | [], _, acc => by unfold reduceAllCached; exact .pure _
  | s :: rest, h, acc => by
    unfold reduceAllCached
    simp only [weights] at h
    exact (toSet_spares k s (by omega)).andThen fun x => (Spares.pure _).andThen fun y => reduceAll_spares k rest (by omega) y
theorem reduceAny_spares (k : Specifier) : ∀ (l : List Specifier), weights l < k.weight → ∀ acc : VSet, Spares H k (reduceAnyCached H lim acc l)
  | [], _, acc => by unfold reduceAnyCached; exact .pure _
  | s :: rest, h, acc => by
    unfold reduceAnyCached
    simp only [weights] at h
    exact (toSet_spares k s (by omega)).andThen fun x => (Spares.pure _).andThen fun y => reduceAny_spares k rest (by omega) y
end

variable (H lim) in
/-- Every entry is explained by the entries for the parts, and is made of the operators `Q`. -/
def Closed (Q : Operator → Prop) (c : Cache Specifier VSet) : Prop := ∀ e ∈ c, e.1.Over Q ∧ Explained H lim c e.1 e.2

variable {Q : Operator → Prop}

variable (H lim Q) in
/-- The computation keeps the cache closed; what it returns has the property. -/
def KeepsClosed (m : Cached Specifier VSet VSet) (P : Cache Specifier VSet → VSet → Prop) : Prop :=
  ∀ c, Closed H lim Q c → Closed H lim Q (m c).2 ∧ ∀ x, (m c).1 = .ok x → P (m c).2 x

theorem KeepsClosed.wrap {s : Specifier} (hs : s.Over Q) {body : Cached Specifier VSet VSet}
    (h : KeepsClosed H lim Q body (fun c x => Explained H lim c s x))
    (hb : Spares H s body) :
    KeepsClosed H lim Q (Cached.wrap H.specifier Specifier.eq s body) (fun c x => holds H c s = some x) := by
  intro c hc
  refine ⟨?_, fun x hx => wrap_returns specifier_equiv hx⟩
  cases hf : holds H c s with
  | some y => rw [wrap_found hf]; exact hc
  | none =>
    have h1 := h c hc
    have h2 := hb c
    unfold Cached.wrap
    rw [show c.find? (fun entry => decide (H.specifier entry.1 = H.specifier s) && Specifier.eq entry.1 s) = none from
      Option.map_eq_none_iff.1 hf]
    rcases hm : body c with ⟨r, c'⟩
    rw [hm] at h1 h2
    cases r with
    | error e => exact h1.1
    | ok y =>
      have h3 : Extends H c' ((s, y) :: c') := by
        intro k x hk
        show Cache.found H.specifier Specifier.eq ((s, y) :: c') k = some x
        unfold Cache.found
        rw [List.find?_cons_of_neg]
        · exact hk
        · intro hm
          simp only [Bool.and_eq_true, decide_eq_true_eq] at hm
          have := h2 hf
          rw [holds, found_congr specifier_equiv c' hm.1 hm.2] at this
          rw [holds, this] at hk
          cases hk
      intro e he
      rcases List.mem_cons.1 he with rfl | he
      · exact ⟨hs, (h1.2 y rfl).mono h3⟩
      · exact ⟨(h1.1 e he).1, (h1.1 e he).2.mono h3⟩


theorem reduceAll_closed {l : List Specifier} (ih : ∀ s ∈ l, KeepsClosed H lim Q (toSetCached H lim s) (fun c x => holds H c s = some x)) :
    ∀ acc : VSet, KeepsClosed H lim Q (reduceAllCached H lim acc l) (fun c x => ReducesAll H lim c acc l x) := by
  induction l with
  | nil =>
    intro acc c hc
    unfold reduceAllCached
    exact ⟨hc, fun x hx => by cases hx; rfl⟩
  | cons s l ihl =>
    intro acc c hc
    obtain ⟨h1, h2⟩ := ih s (by simp) c hc
    unfold reduceAllCached Cached.andThen Cached.pure
    rcases hm : toSetCached H lim s c with ⟨r, c'⟩
    rw [hm] at h1 h2
    cases r with
    | error e => exact ⟨h1, fun x hx => by cases hx⟩
    | ok y =>
      simp only
      cases hz : acc.intersection lim y with
      | error e => exact ⟨h1, fun x hx => by cases hx⟩
      | ok z =>
        obtain ⟨g1, g2⟩ := ihl (fun t ht => ih t (by simp [ht])) z c' h1
        exact ⟨g1, fun x hx => ⟨y, z, reduceAll_stable H lim l z c' s y (h2 y rfl), hz, g2 x hx⟩⟩

theorem reduceAny_closed {l : List Specifier} (ih : ∀ s ∈ l, KeepsClosed H lim Q (toSetCached H lim s) (fun c x => holds H c s = some x)) :
    ∀ acc : VSet, KeepsClosed H lim Q (reduceAnyCached H lim acc l) (fun c x => ReducesAny H lim c acc l x) := by
  induction l with
  | nil =>
    intro acc c hc
    unfold reduceAnyCached
    exact ⟨hc, fun x hx => by cases hx; rfl⟩
  | cons s l ihl =>
    intro acc c hc
    obtain ⟨h1, h2⟩ := ih s (by simp) c hc
    unfold reduceAnyCached Cached.andThen Cached.pure
    rcases hm : toSetCached H lim s c with ⟨r, c'⟩
    rw [hm] at h1 h2
    cases r with
    | error e => exact ⟨h1, fun x hx => by cases hx⟩
    | ok y =>
      simp only
      cases hz : acc.unionWith lim y with
      | error e => exact ⟨h1, fun x hx => by cases hx⟩
      | ok z =>
        obtain ⟨g1, g2⟩ := ihl (fun t ht => ih t (by simp [ht])) z c' h1
        exact ⟨g1, fun x hx => ⟨y, z, reduceAny_stable H lim l z c' s y (h2 y rfl), hz, g2 x hx⟩⟩

theorem all_body_closed {s : Specifier} {l : List Specifier}
    (ih : ∀ t ∈ s :: l, KeepsClosed H lim Q (toSetCached H lim t) (fun c x => holds H c t = some x)) :
    KeepsClosed H lim Q ((toSetCached H lim s).andThen fun x => reduceAllCached H lim x l) (fun c x => Explained H lim c (.all (s :: l)) x) := by
  intro c hc
  obtain ⟨h1, h2⟩ := ih s (by simp) c hc
  unfold Cached.andThen
  rcases hm : toSetCached H lim s c with ⟨r, c'⟩
  rw [hm] at h1 h2
  cases r with
  | error e => exact ⟨h1, fun x hx => by cases hx⟩
  | ok y =>
    obtain ⟨g1, g2⟩ := reduceAll_closed (l := l) (fun t ht => ih t (by simp [ht])) y c' h1
    exact ⟨g1, fun x hx => ⟨y, reduceAll_stable H lim l y c' s y (h2 y rfl), g2 x hx⟩⟩

theorem any_body_closed {s : Specifier} {l : List Specifier}
    (ih : ∀ t ∈ s :: l, KeepsClosed H lim Q (toSetCached H lim t) (fun c x => holds H c t = some x)) :
    KeepsClosed H lim Q ((toSetCached H lim s).andThen fun x => reduceAnyCached H lim x l) (fun c x => Explained H lim c (.any (s :: l)) x) := by
  intro c hc
  obtain ⟨h1, h2⟩ := ih s (by simp) c hc
  unfold Cached.andThen
  rcases hm : toSetCached H lim s c with ⟨r, c'⟩
  rw [hm] at h1 h2
  cases r with
  | error e => exact ⟨h1, fun x hx => by cases hx⟩
  | ok y =>
    obtain ⟨g1, g2⟩ := reduceAny_closed (l := l) (fun t ht => ih t (by simp [ht])) y c' h1
    exact ⟨g1, fun x hx => ⟨y, reduceAny_stable H lim l y c' s y (h2 y rfl), g2 x hx⟩⟩

theorem toSet_closed {s : Specifier} (hs : s.Over Q) : KeepsClosed H lim Q (toSetCached H lim s) (fun c x => holds H c s = some x) := by
  induction hs with
  | never =>
    unfold toSetCached
    exact KeepsClosed.wrap .never (fun c hc => ⟨hc, fun x _ => trivial⟩) (.pure _)
  | always =>
    unfold toSetCached
    exact KeepsClosed.wrap .always (fun c hc => ⟨hc, fun x _ => trivial⟩) (.pure _)
  | one ho =>
    unfold toSetCached
    exact KeepsClosed.wrap (.one ho) (fun c hc => ⟨hc, fun x hx => hx⟩) (.pure _)
  | any hl hs' ih =>
    rename_i l
    cases l with
    | nil => simp at hl
    | cons s l =>
      unfold toSetCached
      refine KeepsClosed.wrap (.any hl hs') (any_body_closed ih) ((toSet_spares _ s ?_).andThen fun x => reduceAny_spares _ l ?_ x) <;>
        simp only [weight, weights] <;> omega
  | all hl hs' ih =>
    rename_i l
    cases l with
    | nil => simp at hl
    | cons s l =>
      unfold toSetCached
      refine KeepsClosed.wrap (.all hl hs') (all_body_closed ih) ((toSet_spares _ s ?_).andThen fun x => reduceAll_spares _ l ?_ x) <;>
        simp only [weight, weights] <;> omega

variable (H lim Q) in
/-- Once the conversion of `s` raised, it raises. -/
def Fails (s : Specifier) : Prop := ∀ (c c' : Cache Specifier VSet) (e : PyErr), (toSetCached H lim s c).1 = .error e →
  Extends H (toSetCached H lim s c).2 c' → Closed H lim Q c' → holds H c' s = none ∧ (toSetCached H lim s c').1 = .error e

theorem wrap_error {s : Specifier} {body : Cached Specifier VSet VSet} {c : Cache Specifier VSet} {e : PyErr}
    (h : (Cached.wrap H.specifier Specifier.eq s body c).1 = .error e) :
    holds H c s = none ∧ (body c).1 = .error e ∧ (Cached.wrap H.specifier Specifier.eq s body c).2 = (body c).2 := by
  cases hf : holds H c s with
  | some y => rw [wrap_found hf] at h; cases h
  | none =>
    unfold Cached.wrap at h ⊢
    rw [show c.find? (fun entry => decide (H.specifier entry.1 = H.specifier s) && Specifier.eq entry.1 s) = none from
      Option.map_eq_none_iff.1 hf] at h ⊢
    rcases hm : body c with ⟨r, c'⟩
    rw [hm] at h
    cases r with
    | error e' => exact ⟨rfl, h, rfl⟩
    | ok y => cases h

theorem wrap_fails {s : Specifier} {body : Cached Specifier VSet VSet} {c : Cache Specifier VSet} {e : PyErr} (hc : Closed H lim Q c)
    (h1 : ∀ k y, k.Over Q → k.eq s = true → ¬ Explained H lim c k y) (h2 : (body c).1 = .error e) :
    holds H c s = none ∧ (Cached.wrap H.specifier Specifier.eq s body c).1 = .error e := by
  have hn : holds H c s = none := by
    cases hf : holds H c s with
    | none => rfl
    | some y =>
      obtain ⟨k, hk, -, he, -⟩ := found_some hf
      exact absurd (hc k hk).2 (h1 k.1 k.2 (hc k hk).1 he)
  refine ⟨hn, ?_⟩
  unfold Cached.wrap
  rw [show c.find? (fun entry => decide (H.specifier entry.1 = H.specifier s) && Specifier.eq entry.1 s) = none from
    Option.map_eq_none_iff.1 hn]
  rcases hm : body c with ⟨r, c'⟩
  rw [hm] at h2
  cases h2
  rfl

theorem reduceAll_fails (hH : ∀ s t : Specifier, s.Over Q → t.Over Q → s.eq t = true → H.specifier s = H.specifier t) {l : List Specifier}
    (hl : ∀ s ∈ l, s.Over Q) (ih : ∀ s ∈ l, Fails H lim Q s) : ∀ (acc : VSet) (c c' : Cache Specifier VSet) (e : PyErr),
    (reduceAllCached H lim acc l c).1 = .error e → Extends H (reduceAllCached H lim acc l c).2 c' → Closed H lim Q c' →
    (∀ l' : List Specifier, (∀ s ∈ l', s.Over Q) → eqList l' l = true → ∀ x, ¬ ReducesAll H lim c' acc l' x) ∧
      (reduceAllCached H lim acc l c').1 = .error e := by
  induction l with
  | nil =>
    intro acc c c' e he
    unfold reduceAllCached at he
    cases he
  | cons s l ihl =>
    intro acc c c' e he hx hc
    unfold reduceAllCached Cached.andThen Cached.pure at he hx ⊢
    have hs := ih s (by simp) c c' e
    have hr := fun y => (toSet_function H lim).returns (a := s) (c := c) (x := y)
    have hst := reduceAll_stable H lim l
    rcases hm : toSetCached H lim s c with ⟨r, c1⟩
    rw [hm] at he hx hs hr
    cases r with
    | error e' =>
      cases he
      obtain ⟨h1, h2⟩ := hs rfl hx hc
      refine ⟨fun l' hl' heq x hred => ?_, ?_⟩
      · cases l' with
        | nil => simp [eqList] at heq
        | cons t l' =>
          simp only [eqList, Bool.and_eq_true] at heq
          obtain ⟨y, z, g1, -⟩ := hred
          rw [holds, found_congr specifier_equiv c' (hH t s (hl' t (by simp)) (hl s (by simp)) heq.1) heq.1] at g1
          rw [holds, g1] at h1
          cases h1
      · rcases hm' : toSetCached H lim s c' with ⟨r', c2⟩
        rw [hm'] at h2
        cases h2
        rfl
    | ok y =>
      simp only at he hx
      have hold : holds H c' s = some y := by
        refine hx s y ?_
        cases hz : acc.intersection lim y with
        | error e' => exact hr y rfl
        | ok z => exact hst z c1 s y (hr y rfl)
      rw [(toSet_function H lim).hit hold]
      simp only
      have same : ∀ l' : List Specifier, (∀ s ∈ l', s.Over Q) → eqList l' (s :: l) = true → ∀ x, ReducesAll H lim c' acc l' x →
          ∃ m z, eqList m l = true ∧ (∀ s ∈ m, s.Over Q) ∧ acc.intersection lim y = .ok z ∧ ReducesAll H lim c' z m x := by
        intro l' hl' heq x hred
        cases l' with
        | nil => simp [eqList] at heq
        | cons t l' =>
          simp only [eqList, Bool.and_eq_true] at heq
          obtain ⟨y', z, g1, g2, g3⟩ := hred
          rw [holds, found_congr specifier_equiv c' (hH t s (hl' t (by simp)) (hl s (by simp)) heq.1) heq.1] at g1
          rw [holds, g1] at hold
          cases hold
          exact ⟨l', z, heq.2, fun s hs => hl' s (by simp [hs]), g2, g3⟩
      cases hz : acc.intersection lim y with
      | error e' =>
        rw [hz] at he
        cases he
        refine ⟨fun l' hl' heq x hred => ?_, rfl⟩
        obtain ⟨m, z, -, -, g, -⟩ := same l' hl' heq x hred
        rw [hz] at g
        cases g
      | ok z =>
        rw [hz] at he hx
        obtain ⟨h1, h2⟩ := ihl (fun s hs => hl s (by simp [hs])) (fun s hs => ih s (by simp [hs])) z c1 c' e he hx hc
        refine ⟨fun l' hl' heq x hred => ?_, h2⟩
        obtain ⟨m, z', g1, g2, g3, g4⟩ := same l' hl' heq x hred
        rw [hz] at g3
        cases g3
        exact h1 m g2 g1 x g4

theorem reduceAny_fails (hH : ∀ s t : Specifier, s.Over Q → t.Over Q → s.eq t = true → H.specifier s = H.specifier t) {l : List Specifier}
    (hl : ∀ s ∈ l, s.Over Q) (ih : ∀ s ∈ l, Fails H lim Q s) : ∀ (acc : VSet) (c c' : Cache Specifier VSet) (e : PyErr),
    (reduceAnyCached H lim acc l c).1 = .error e → Extends H (reduceAnyCached H lim acc l c).2 c' → Closed H lim Q c' →
    (∀ l' : List Specifier, (∀ s ∈ l', s.Over Q) → eqList l' l = true → ∀ x, ¬ ReducesAny H lim c' acc l' x) ∧
      (reduceAnyCached H lim acc l c').1 = .error e := by
  induction l with
  | nil =>
    intro acc c c' e he
    unfold reduceAnyCached at he
    cases he
  | cons s l ihl =>
    intro acc c c' e he hx hc
    unfold reduceAnyCached Cached.andThen Cached.pure at he hx ⊢
    have hs := ih s (by simp) c c' e
    have hr := fun y => (toSet_function H lim).returns (a := s) (c := c) (x := y)
    have hst := reduceAny_stable H lim l
    rcases hm : toSetCached H lim s c with ⟨r, c1⟩
    rw [hm] at he hx hs hr
    cases r with
    | error e' =>
      cases he
      obtain ⟨h1, h2⟩ := hs rfl hx hc
      refine ⟨fun l' hl' heq x hred => ?_, ?_⟩
      · cases l' with
        | nil => simp [eqList] at heq
        | cons t l' =>
          simp only [eqList, Bool.and_eq_true] at heq
          obtain ⟨y, z, g1, -⟩ := hred
          rw [holds, found_congr specifier_equiv c' (hH t s (hl' t (by simp)) (hl s (by simp)) heq.1) heq.1] at g1
          rw [holds, g1] at h1
          cases h1
      · rcases hm' : toSetCached H lim s c' with ⟨r', c2⟩
        rw [hm'] at h2
        cases h2
        rfl
    | ok y =>
      simp only at he hx
      have hold : holds H c' s = some y := by
        refine hx s y ?_
        cases hz : acc.unionWith lim y with
        | error e' => exact hr y rfl
        | ok z => exact hst z c1 s y (hr y rfl)
      rw [(toSet_function H lim).hit hold]
      simp only
      have same : ∀ l' : List Specifier, (∀ s ∈ l', s.Over Q) → eqList l' (s :: l) = true → ∀ x, ReducesAny H lim c' acc l' x →
          ∃ m z, eqList m l = true ∧ (∀ s ∈ m, s.Over Q) ∧ acc.unionWith lim y = .ok z ∧ ReducesAny H lim c' z m x := by
        intro l' hl' heq x hred
        cases l' with
        | nil => simp [eqList] at heq
        | cons t l' =>
          simp only [eqList, Bool.and_eq_true] at heq
          obtain ⟨y', z, g1, g2, g3⟩ := hred
          rw [holds, found_congr specifier_equiv c' (hH t s (hl' t (by simp)) (hl s (by simp)) heq.1) heq.1] at g1
          rw [holds, g1] at hold
          cases hold
          exact ⟨l', z, heq.2, fun s hs => hl' s (by simp [hs]), g2, g3⟩
      cases hz : acc.unionWith lim y with
      | error e' =>
        rw [hz] at he
        cases he
        refine ⟨fun l' hl' heq x hred => ?_, rfl⟩
        obtain ⟨m, z, -, -, g, -⟩ := same l' hl' heq x hred
        rw [hz] at g
        cases g
      | ok z =>
        rw [hz] at he hx
        obtain ⟨h1, h2⟩ := ihl (fun s hs => hl s (by simp [hs])) (fun s hs => ih s (by simp [hs])) z c1 c' e he hx hc
        refine ⟨fun l' hl' heq x hred => ?_, h2⟩
        obtain ⟨m, z', g1, g2, g3, g4⟩ := same l' hl' heq x hred
        rw [hz] at g3
        cases g3
        exact h1 m g2 g1 x g4

theorem toSet_fails (hH : ∀ s t : Specifier, s.Over Q → t.Over Q → s.eq t = true → H.specifier s = H.specifier t)
    (hQ : ∀ o, Q o → o.Valid) {s : Specifier} (hs : s.Over Q) : Fails H lim Q s := by
  induction hs with
  | never =>
    intro c c' e he
    unfold toSetCached at he
    obtain ⟨-, h, -⟩ := wrap_error he
    cases h
  | always =>
    intro c c' e he
    unfold toSetCached at he
    obtain ⟨-, h, -⟩ := wrap_error he
    cases h
  | one ho =>
    rename_i o
    intro c c' e he hx hc
    unfold toSetCached at he ⊢
    obtain ⟨-, h, -⟩ := wrap_error he
    refine wrap_fails hc (fun k y hk hke hex => ?_) h
    cases hk with
    | one hp =>
      simp only [Specifier.eq] at hke
      exact operator_error (hQ _ ho) (hQ _ hp) (op_eq_symm hke) hex h
    | _ => simp [Specifier.eq] at hke
  | any hl hs' ih =>
    rename_i l
    cases l with
    | nil => simp at hl
    | cons s l =>
      intro c c' e he hx hc
      unfold toSetCached at he hx ⊢
      obtain ⟨n1, b1, b2⟩ := wrap_error he
      rw [b2] at hx
      have hr := fun y => (toSet_function H lim).returns (a := s) (c := c) (x := y)
      have hf := ih s (by simp) c c' e
      simp only at b1 hx
      unfold Cached.andThen at b1 hx
      have key : (∀ k y, k.Over Q → k.eq (.any (s :: l)) = true → ¬ Explained H lim c' k y) ∧
          (((toSetCached H lim s).andThen fun x => reduceAnyCached H lim x l) c').1 = .error e := by
        unfold Cached.andThen
        rcases hm : toSetCached H lim s c with ⟨r, c1⟩
        rw [hm] at b1 hx hr hf
        have split : ∀ k y, k.Over Q → k.eq (.any (s :: l)) = true → Explained H lim c' k y → ∃ t m z, (∀ s ∈ t :: m, s.Over Q) ∧
            t.eq s = true ∧ eqList m l = true ∧ holds H c' s = some z ∧ ReducesAny H lim c' z m y := by
          intro k y hk hke hex
          cases hk with
          | any hkl hk =>
            rename_i k
            simp only [Specifier.eq] at hke
            cases k with
            | nil => simp at hkl
            | cons t m =>
              simp only [eqList, Bool.and_eq_true] at hke
              obtain ⟨z, z1, z2⟩ := hex
              rw [holds, found_congr specifier_equiv c' (hH t s (hk t (by simp)) (hs' s (by simp)) hke.1) hke.1] at z1
              exact ⟨t, m, z, hk, hke.1, hke.2, z1, z2⟩
          | _ => simp [Specifier.eq] at hke
        cases r with
        | error e' =>
          cases b1
          obtain ⟨h1, h2⟩ := hf rfl hx hc
          refine ⟨fun k y hk hke hex => ?_, ?_⟩
          · obtain ⟨t, m, z, -, -, -, g, -⟩ := split k y hk hke hex
            rw [g] at h1
            cases h1
          · rcases hm' : toSetCached H lim s c' with ⟨r', c2⟩
            rw [hm'] at h2
            cases h2
            rfl
        | ok y =>
          have hold : holds H c' s = some y := hx s y (reduceAny_stable H lim l y c1 s y (hr y rfl))
          obtain ⟨h1, h2⟩ := reduceAny_fails hH (fun t ht => hs' t (by simp [ht])) (fun t ht => ih t (by simp [ht])) y c1 c' e b1 hx hc
          rw [(toSet_function H lim).hit hold]
          refine ⟨fun k x hk hke hex => ?_, h2⟩
          obtain ⟨t, m, z, g1, -, g2, g3, g4⟩ := split k x hk hke hex
          rw [hold] at g3
          cases g3
          exact h1 m (fun u hu => g1 u (by simp [hu])) g2 x g4
      exact wrap_fails hc key.1 key.2
  | all hl hs' ih =>
    rename_i l
    cases l with
    | nil => simp at hl
    | cons s l =>
      intro c c' e he hx hc
      unfold toSetCached at he hx ⊢
      obtain ⟨n1, b1, b2⟩ := wrap_error he
      rw [b2] at hx
      have hr := fun y => (toSet_function H lim).returns (a := s) (c := c) (x := y)
      have hf := ih s (by simp) c c' e
      simp only at b1 hx
      unfold Cached.andThen at b1 hx
      have key : (∀ k y, k.Over Q → k.eq (.all (s :: l)) = true → ¬ Explained H lim c' k y) ∧
          (((toSetCached H lim s).andThen fun x => reduceAllCached H lim x l) c').1 = .error e := by
        unfold Cached.andThen
        rcases hm : toSetCached H lim s c with ⟨r, c1⟩
        rw [hm] at b1 hx hr hf
        have split : ∀ k y, k.Over Q → k.eq (.all (s :: l)) = true → Explained H lim c' k y → ∃ t m z, (∀ s ∈ t :: m, s.Over Q) ∧
            t.eq s = true ∧ eqList m l = true ∧ holds H c' s = some z ∧ ReducesAll H lim c' z m y := by
          intro k y hk hke hex
          cases hk with
          | all hkl hk =>
            rename_i k
            simp only [Specifier.eq] at hke
            cases k with
            | nil => simp at hkl
            | cons t m =>
              simp only [eqList, Bool.and_eq_true] at hke
              obtain ⟨z, z1, z2⟩ := hex
              rw [holds, found_congr specifier_equiv c' (hH t s (hk t (by simp)) (hs' s (by simp)) hke.1) hke.1] at z1
              exact ⟨t, m, z, hk, hke.1, hke.2, z1, z2⟩
          | _ => simp [Specifier.eq] at hke
        cases r with
        | error e' =>
          cases b1
          obtain ⟨h1, h2⟩ := hf rfl hx hc
          refine ⟨fun k y hk hke hex => ?_, ?_⟩
          · obtain ⟨t, m, z, -, -, -, g, -⟩ := split k y hk hke hex
            rw [g] at h1
            cases h1
          · rcases hm' : toSetCached H lim s c' with ⟨r', c2⟩
            rw [hm'] at h2
            cases h2
            rfl
        | ok y =>
          have hold : holds H c' s = some y := hx s y (reduceAll_stable H lim l y c1 s y (hr y rfl))
          obtain ⟨h1, h2⟩ := reduceAll_fails hH (fun t ht => hs' t (by simp [ht])) (fun t ht => ih t (by simp [ht])) y c1 c' e b1 hx hc
          rw [(toSet_function H lim).hit hold]
          refine ⟨fun k x hk hke hex => ?_, h2⟩
          obtain ⟨t, m, z, g1, -, g2, g3, g4⟩ := split k x hk hke hex
          rw [hold] at g3
          cases g3
          exact h1 m (fun u hu => g1 u (by simp [hu])) g2 x g4
      exact wrap_fails hc key.1 key.2

end
end Specifier
end Verif
