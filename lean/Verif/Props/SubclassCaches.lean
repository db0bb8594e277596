import Verif.Proofs.SubclassCaches
import Verif.Props.SpecParsing
/-!
# C107: the caches and versions of more than one class

One dictionary serves all classes. Still the classes do not get in each other's way: a conversion gives what it gives when only
calls for its own class came before.
-/

namespace Verif

/-- The cache of `specifier_to_version_set` after converting the given specifiers one after the other in a new process. -/
def TSpecifier.toSetHistory (hash : TSpecifier → Int) (S : ItemSort) (lim : Nat) (history : List TSpecifier) : Cache TSpecifier TSet :=
  Cached.after (history.map (TSpecifier.toSetCached hash S lim))

/-- The cache of `version_set_to_specifier` after converting the given sets one after the other in a new process. -/
def TSpecifier.fromSetHistory (hash : TSet → Int) (S : ItemSort) (lim : Nat) (history : List TSet) : Cache TSet TSpecifier :=
  Cached.after (history.map (TSpecifier.fromSetCached hash S lim))

mutual
theorem classes_ofClass (c : Nat) : ∀ (s : Specifier), ∀ x ∈ (s.ofClass c).classes, x = c
  | .never, _, h => by simp [Specifier.ofClass, TSpecifier.classes] at h
  | .always, _, h => by simp [Specifier.ofClass, TSpecifier.classes] at h
  | .one _, _, h => by simpa [Specifier.ofClass, TSpecifier.classes] using h
  | .any l, x, h => classesList_ofClass c l x h
  | .all l, x, h => classesList_ofClass c l x h
theorem classesList_ofClass (c : Nat) : ∀ (l : List Specifier), ∀ x ∈ TSpecifier.classesList (Specifier.ofClassList c l), x = c
  | [], _, h => by simp [Specifier.ofClassList, TSpecifier.classesList] at h
  | s :: l, x, h => by
    simp only [Specifier.ofClassList, TSpecifier.classesList, List.mem_append] at h
    exact h.elim (classes_ofClass c s x) (classesList_ofClass c l x)
end

theorem setClasses_ofClass (c : Nat) (s : VSet) : ∀ x ∈ (s.ofClass c).classes, x = c := by
  intro x hx
  simp only [TSet.classes, extract_ofClass, List.mem_flatMap, List.mem_map] at hx
  obtain ⟨_, ⟨i, -, rfl⟩, h⟩ := hx
  simp only [TItem.classes, ofClass_fields, List.mem_map, List.mem_append, Option.mem_toList, Option.map_eq_some_iff] at h
  obtain ⟨v, (⟨w, -, rfl⟩ | ⟨w, -, rfl⟩), h⟩ := h <;> exact h.symm

theorem filter_class {α β : Type} (cls : β → List Nat) (p : Nat → α → β) (hp : ∀ c a, ∀ x ∈ cls (p c a), x = c) (c : Nat)
    (history : List (Nat × α)) :
    (history.map (fun q => p q.1 q.2)).filter (fun b => (cls b).any (decide <| · = c)) =
      (((history.filter (fun q => q.1 = c)).map (·.2)).map (p c)).filter (fun b => (cls b).any (decide <| · = c)) := by
  induction history with
  | nil => rfl
  | cons q l ih =>
    obtain ⟨d, a⟩ := q
    by_cases h : d = c
    · subst h
      simp only [List.map_cons, List.filter_cons, decide_true, if_true, ih]
    · have hn : (cls (p d a)).any (decide <| · = c) = false := by
        rw [List.any_eq_false]
        intro x hx
        rw [hp d a x hx]
        simpa using h
      simp only [List.map_cons, List.filter_cons, h, decide_false, hn, Bool.false_eq_true, if_false]
      exact ih

/-- Two histories that agree on the class `c`. -/
theorem history_class {α β α' β' : Type} {cls : α → List Nat} {f : α → Except PyErr β} {call : α → Cached α β β}
    {p : Nat → α' → α} {q : β' → β} {call' : α' → Cached α' β' β'} {c : Nat}
    (hk : ∀ a, Cached.Keeps cls f (call a) (cls a) (f a))
    (ha : ∀ (A : Nat → Bool) a, (∀ x ∈ cls a, A x = true) → Cached.Agrees cls f A (call a))
    (hp : ∀ c a, ∀ x ∈ cls (p c a), x = c) (hm : ∀ a, Cached.Maps (p c) q q (call' a) (call (p c a)))
    (history : List (Nat × α')) (a : α') :
    (call (p c a) (Cached.after ((history.map (fun r => p r.1 r.2)).map call))).1 =
      (call' a (Cached.after (((history.filter (fun r => r.1 = c)).map (·.2)).map call'))).1.map q := by
  let A : Nat → Bool := fun x => decide (x = c)
  have clean : Cache.Clean cls f ([] : Cache α β) := fun e he => by cases he
  have hA : ∀ d (b : α'), (∀ x ∈ cls (p d b), A x = true) ∨ ∀ x ∈ cls (p d b), A x = false := fun d b => by
    by_cases h : d = c
    · exact .inl fun x hx => by simp [A, hp d b x hx, h]
    · exact .inr fun x hx => by simp [A, hp d b x hx, h]
  obtain ⟨c1, c2, c3⟩ := part_history hk (ha A) (history.map (fun r => p r.1 r.2))
    (fun b hb => by obtain ⟨r, -, rfl⟩ := List.mem_map.1 hb; exact hA _ _) [] [] clean clean rfl
  obtain ⟨d1, d2, d3⟩ := part_history hk (ha A) (((history.filter (fun r => r.1 = c)).map (·.2)).map (p c))
    (fun b hb => by obtain ⟨r, -, rfl⟩ := List.mem_map.1 hb; exact hA _ _) [] [] clean clean rfl
  rw [filter_class cls p hp c history] at c3
  have h := (ha A (p c a) (fun x hx => by simp [A, hp c a x hx]) _ _ c1 d1 (c3.trans d3.symm)).1
  have hmap := maps_history hm ((history.filter (fun r => r.1 = c)).map (·.2)) []
  simp only [Cached.after]
  rw [h]
  rw [List.map_nil] at hmap
  rw [hmap, hm a]

section
variable (S : ItemSort) (lim : Nat)

/-- C107. Converting a specifier of the class `c`, after converting specifiers of any classes, gives what the one-class model with
its cache gives after the conversions for the class `c` alone. Nothing is assumed about the hashes in other classes. -/
theorem C107_specifiers (hash : TSpecifier → Int) (H : Hasher) (c : Nat) (hh : ∀ s : Specifier, hash (s.ofClass c) = H.specifier s)
    (history : List (Nat × Specifier)) (s : Specifier) :
    ((s.ofClass c).toSetCached hash S lim (TSpecifier.toSetHistory hash S lim (history.map (fun r => r.2.ofClass r.1)))).1 =
      (s.toSetCached H lim (Specifier.toSetHistory H lim ((history.filter (fun r => r.1 = c)).map (·.2)))).1.map (·.ofClass c) :=
  history_class (p := Specifier.ofClass) (toSet_keeps hash S lim) (fun _ => toSet_agrees hash S lim) classes_ofClass
    (toSetCached_ofClass S lim hh) history s

/-- All hashes equal: the worst case for a dictionary. -/
def flatHasher : Hasher := ⟨fun _ => 0, fun _ => 0, 0, fun _ => 0, fun _ => 0⟩

theorem flatHasher_specifier (c : Nat) (s : Specifier) : (fun _ : TSpecifier => (0 : Int)) (s.ofClass c) = flatHasher.specifier s := by
  cases s <;> rfl

theorem flatHasher_vset (c : Nat) (s : VSet) : (fun _ : TSet => (0 : Int)) (s.ofClass c) = flatHasher.vset s := by
  cases s with
  | item i => cases i <;> rfl
  | _ => rfl

/-- After `~= 1.0` of the class 1, `~= 1.0.0` of the class 1 gets the wrong set (C36_violation), but of the class 0 the right one. -/
example : ((Specifier.one ⟨.tildeEqual, exVersion [1, 0, 0]⟩).ofClass 0 |>.toSetCached (fun _ => 0) .insertion 5
      (TSpecifier.toSetHistory (fun _ => 0) .insertion 5 [(Specifier.one ⟨.tildeEqual, exVersion [1, 0]⟩).ofClass 1])).1 =
        .ok ((VSet.item (exRange (some [1, 0, 0]) (some [1, 1, 0]))).ofClass 0) ∧
    ((Specifier.one ⟨.tildeEqual, exVersion [1, 0, 0]⟩).ofClass 1 |>.toSetCached (fun _ => 0) .insertion 5
      (TSpecifier.toSetHistory (fun _ => 0) .insertion 5 [(Specifier.one ⟨.tildeEqual, exVersion [1, 0]⟩).ofClass 1])).1 =
        .ok ((VSet.item (exRange (some [1, 0]) (some [2, 0]))).ofClass 1) := by
  constructor
  · have h := C107_specifiers .insertion 5 (fun _ => 0) flatHasher 0 (flatHasher_specifier 0)
      [(1, .one ⟨.tildeEqual, exVersion [1, 0]⟩)] (.one ⟨.tildeEqual, exVersion [1, 0, 0]⟩)
    exact h.trans (by rw [show ([(1, Specifier.one ⟨.tildeEqual, exVersion [1, 0]⟩)].filter (fun r => r.1 = 0)).map (·.2) = [] from rfl]
                      decide +kernel)
  · have h := C107_specifiers .insertion 5 (fun _ => 0) flatHasher 1 (flatHasher_specifier 1)
      [(1, .one ⟨.tildeEqual, exVersion [1, 0]⟩)] (.one ⟨.tildeEqual, exVersion [1, 0, 0]⟩)
    exact h.trans (by
      rw [show ([(1, Specifier.one ⟨.tildeEqual, exVersion [1, 0]⟩)].filter (fun r => r.1 = 1)).map (·.2) =
        [Specifier.one ⟨.tildeEqual, exVersion [1, 0]⟩] from rfl, (C36_violation flatHasher 5).1]
      rfl)

/-- C107. The same for `version_set_to_specifier`. -/
theorem C107_sets (hash : TSet → Int) (H : Hasher) (c : Nat) (hh : ∀ s : VSet, hash (s.ofClass c) = H.vset s)
    (history : List (Nat × VSet)) (s : VSet) :
    (TSpecifier.fromSetCached hash S lim (s.ofClass c) (TSpecifier.fromSetHistory hash S lim (history.map (fun r => r.2.ofClass r.1)))).1 =
      (Specifier.fromSetCached H lim s (Specifier.fromSetHistory H lim ((history.filter (fun r => r.1 = c)).map (·.2)))).1.map
        (·.ofClass c) :=
  history_class (p := VSet.ofClass) (fun s => fromSet_keeps hash S lim s) (fun _ s h => fromSet_agrees hash S lim s h)
    setClasses_ofClass (fromSetCached_ofClass S lim hh) history s

/-- After `[1, 2)` of the class 1, the set `[1.0, 2)` of the class 0 is written with its own `1.0`. -/
example : (TSpecifier.fromSetCached (fun _ => 0) .insertion 5 ((VSet.item (exRange (some [1, 0]) (some [2]))).ofClass 0)
      (TSpecifier.fromSetHistory (fun _ => 0) .insertion 5 [(VSet.item (exRange (some [1]) (some [2]))).ofClass 1])).1 =
    .ok (.all [.one .greaterOrEqual ⟨0, exVersion [1, 0]⟩, .one .less ⟨0, exVersion [2]⟩]) :=
  (C107_sets .insertion 5 (fun _ => 0) flatHasher 0 (flatHasher_vset 0) [(1, .item (exRange (some [1]) (some [2])))]
    (.item (exRange (some [1, 0]) (some [2])))).trans (by rfl)

/-- C107. Specifiers may also mix classes, and then their conversion may raise at any point. As long as none of them holds a
version of the class `c`, a specifier of the class `c` is converted as in a new process. -/
theorem C107_mixed (hash : TSpecifier → Int) (H : Hasher) (c : Nat) (hh : ∀ s : Specifier, hash (s.ofClass c) = H.specifier s)
    (history : List TSpecifier) (hc : ∀ t ∈ history, c ∉ t.classes) (s : Specifier) :
    ((s.ofClass c).toSetCached hash S lim (TSpecifier.toSetHistory hash S lim history)).1 =
      (s.toSetCached H lim []).1.map (·.ofClass c) := by
  let A : Nat → Bool := fun x => decide (x = c)
  have clean : Cache.Clean TSpecifier.classes (TSpecifier.toSet S lim) [] := fun e he => by cases he
  have hA : ∀ t ∈ history, ∀ x ∈ t.classes, A x = false := fun t ht x hx => by
    simp only [A, decide_eq_false_iff_not]
    rintro rfl
    exact hc t ht hx
  obtain ⟨c1, -, c3⟩ := part_history (A := A) (toSet_keeps hash S lim) (toSet_agrees hash S lim) history
    (fun t ht => .inr (hA t ht)) [] [] clean clean rfl
  have hf : history.filter (fun t => t.classes.any A) = [] := by
    rw [List.filter_eq_nil_iff]
    intro t ht
    rw [Bool.not_eq_true, List.any_eq_false]
    exact fun x hx => by rw [hA t ht x hx]; simp
  rw [hf] at c3
  have h := (toSet_agrees hash S lim (A := A) (s.ofClass c) (fun x hx => by simp [A, classes_ofClass c s x hx]) _ _ c1 clean c3).1
  have hm := toSetCached_ofClass (hash := hash) S lim hh s []
  rw [List.map_nil] at hm
  unfold TSpecifier.toSetHistory Cached.after
  rw [h, hm]

/-- `~= 1.0, < 2` with the classes 1 and 2 raises; `~= 1.0` has been stored by then. The class 0 does not see it. -/
example : (TSpecifier.all [.one .tildeEqual ⟨1, exVersion [1, 0]⟩, .one .less ⟨2, exVersion [2]⟩]).toSet .insertion 5 = .error .typeError ∧
    (TSpecifier.toSetHistory (fun _ => 0) .insertion 5
      [.all [.one .tildeEqual ⟨1, exVersion [1, 0]⟩, .one .less ⟨2, exVersion [2]⟩]]).length = 2 ∧
    ((Specifier.one ⟨.tildeEqual, exVersion [1, 0, 0]⟩).ofClass 0 |>.toSetCached (fun _ => 0) .insertion 5
      (TSpecifier.toSetHistory (fun _ => 0) .insertion 5
        [.all [.one .tildeEqual ⟨1, exVersion [1, 0]⟩, .one .less ⟨2, exVersion [2]⟩]])).1 =
          .ok ((VSet.item (exRange (some [1, 0, 0]) (some [1, 1, 0]))).ofClass 0) := by
  refine ⟨by decide +kernel, by decide +kernel, ?_⟩
  have h := C107_mixed .insertion 5 (fun _ => 0) flatHasher 0 (flatHasher_specifier 0)
    [.all [.one .tildeEqual ⟨1, exVersion [1, 0]⟩, .one .less ⟨2, exVersion [2]⟩]]
    (by simp [TSpecifier.classes, TSpecifier.classesList]) (.one ⟨.tildeEqual, exVersion [1, 0, 0]⟩)
  exact h.trans (by decide +kernel)

/-- C107. So C36 holds in every class for itself: if the operators of the class `c` are distinct, the set is equal to the one
computed without cache, whatever the operators of other classes are. -/
theorem C107_independent (hash : TSpecifier → Int) (H : Hasher) (c : Nat) (hh : ∀ s : Specifier, hash (s.ofClass c) = H.specifier s)
    (Q : Operator → Prop) (hQ : Distinct Q) (history : List (Nat × Specifier)) (hq : ∀ r ∈ history, r.1 = c → r.2.Over Q)
    (s : Specifier) (hs : s.Over Q) :
    (∃ x y, ((s.ofClass c).toSetCached hash S (lim + 2)
        (TSpecifier.toSetHistory hash S (lim + 2) (history.map (fun r => r.2.ofClass r.1)))).1 = .ok x ∧
      (s.ofClass c).toSet S (lim + 2) = .ok y ∧ x.eq y = true) ∨
    ∃ e, ((s.ofClass c).toSetCached hash S (lim + 2)
        (TSpecifier.toSetHistory hash S (lim + 2) (history.map (fun r => r.2.ofClass r.1)))).1 = .error e ∧
      (s.ofClass c).toSet S (lim + 2) = .error e := by
  rw [C107_specifiers S (lim + 2) hash H c hh history s, toSet_ofClass]
  have hq' : ∀ t ∈ (history.filter (fun r => r.1 = c)).map (·.2), t.Over Q := by
    intro t ht
    obtain ⟨r, hr, rfl⟩ := List.mem_map.1 ht
    have := List.mem_filter.1 hr
    exact hq r this.1 (by simpa using this.2)
  rcases C36_history_independent H lim Q hQ _ hq' s hs with ⟨x, y, h1, h2, h3⟩ | ⟨e, h1, h2⟩
  · exact .inl ⟨_, _, by rw [h1]; rfl, by rw [h2]; rfl, by rw [setEq_ofClass]; exact h3⟩
  · exact .inr ⟨e, by rw [h1]; rfl, by rw [h2]; rfl⟩

example : ∃ x y, ((Specifier.one ⟨.tildeEqual, exVersion [1, 0, 0]⟩).ofClass 0 |>.toSetCached (fun _ => 0) .insertion 7
      (TSpecifier.toSetHistory (fun _ => 0) .insertion 7 [(Specifier.one ⟨.tildeEqual, exVersion [1, 0]⟩).ofClass 1])).1 = .ok x ∧
    ((Specifier.one ⟨.tildeEqual, exVersion [1, 0, 0]⟩).ofClass 0).toSet .insertion 7 = .ok y ∧ x.eq y = true := by
  have h := C107_independent .insertion 5 (fun _ => 0) flatHasher 0 (flatHasher_specifier 0)
    (fun o => o = ⟨.tildeEqual, exVersion [1, 0, 0]⟩) ⟨by rintro _ rfl; decide +kernel, by rintro _ _ rfl rfl _; exact .inr rfl⟩
    [(1, .one ⟨.tildeEqual, exVersion [1, 0]⟩)] (by simp) _ (.one rfl)
  rcases h with h | ⟨e, -, h⟩
  · exact h
  · exact absurd h (by cases e <;> decide +kernel)

/-- C107. Converting a set to a specifier, and `simplify`, on versions of one class. -/
theorem C107_one_class (c : Nat) :
    (∀ s : VSet, TSpecifier.fromSet S lim (s.ofClass c) = (Specifier.fromSet lim s).map (·.ofClass c)) ∧
    ∀ s : Specifier, TSpecifier.simplify S lim (s.ofClass c) = (Specifier.simplify lim s).map (·.ofClass c) := by
  refine ⟨fromSet_ofClass S c lim, fun s => ?_⟩
  simp only [TSpecifier.simplify, Specifier.simplify, toSet_ofClass, bind, Except.bind]
  cases s.toSet lim with
  | error e => rfl
  | ok x => exact fromSet_ofClass S c lim x

example : TSpecifier.simplify .insertion 5 ((Specifier.any [.one ⟨.less, exVersion [1]⟩, .one ⟨.greater, exVersion [1]⟩]).ofClass 4) =
    .ok (.one .notEqual ⟨4, exVersion [1]⟩) :=
  ((C107_one_class .insertion 5 4).2 (.any [.one ⟨.less, exVersion [1]⟩, .one ⟨.greater, exVersion [1]⟩])).trans (by rfl)

end

theorem parse_key {α β : Type} [DecidableEq α] (hash : α → Int) (f : α → Except PyErr β) (call : α → Cached α β β)
    (h : ∀ a, call a = Cached.wrap hash (fun a b => decide (a = b)) a (.pure (f a))) (history : List α) (a : α) (r : Except PyErr β)
    (hr : f a = r) : (call a (Cached.after (history.map call))).1 = r := by
  rw [show call = _ from funext h]
  exact (wrap_key hash f a _ (after_key hash f history [] (by simp))).1.trans hr

/-- C107. Whatever was parsed before, for whatever classes, `parse_version` and `parse_specifier` give what the parsers give, in
the class asked for; without `version_type`, in `Version`. -/
theorem C107_parse (hash : PyStr × Option Nat → Int) (base : Nat) (history : List (PyStr × Option Nat)) (s : PyStr) (t : Option Nat) :
    (parseVersionT hash base (s, t) (Cached.after (history.map (parseVersionT hash base)))).1 =
      (Version.parse s).map (⟨t.getD base, ·⟩) ∧
    (parseSpecifierT hash base (s, t) (Cached.after (history.map (parseSpecifierT hash base)))).1 =
      (Specifier.parse s).map (·.ofClass (t.getD base)) := by
  constructor
  · have h := parse_key hash (fun k => (Version.parse k.1).bind fun v => .ok ⟨k.2.getD base, v⟩) (parseVersionT hash base) (fun _ => rfl)
      history (s, t) _ rfl
    rw [h]
    cases Version.parse s <;> rfl
  · have h := parse_key hash (fun k => (Specifier.parse k.1).bind fun x => .ok (x.ofClass (k.2.getD base))) (parseSpecifierT hash base)
      (fun _ => rfl) history (s, t) _ rfl
    rw [h]
    cases Specifier.parse s <;> rfl

example : (parseVersionT (fun _ => 7) 0 ("1.0".toList, some 3)
      (Cached.after ([("1.0".toList, none), ("1.0".toList, some 2)].map (parseVersionT (fun _ => 7) 0)))).1 =
    .ok ⟨3, exVersion [1, 0]⟩ :=
  (C107_parse _ 0 _ _ _).1.trans (by decide +kernel)

end Verif
