import Verif.Spec.Classes
import Verif.Proofs.SubclassSets
/-!
# Caches with keys of several classes
-/

namespace Verif

/-! ### Caches in general

`cls` gives the classes of the versions in a key; `f` is the function without cache. -/

section
variable {α β γ δ : Type} (cls : α → List Nat) (f : α → Except PyErr β)

/-- The entries for keys without versions are right. -/
def Cache.Clean (c : Cache α β) : Prop := ∀ e ∈ c, cls e.1 = [] → f e.1 = .ok e.2

/-- The entries for keys with a version of one of the classes `A`. -/
def Cache.part (A : Nat → Bool) (c : Cache α β) : Cache α β := c.filter (fun e => (cls e.1).any A)

/-- The computation `m`, which uses keys with the classes `l` only, keeps the rest of the cache; without versions it gives
`r`. -/
def Cached.Keeps (m : Cached α β γ) (l : List Nat) (r : Except PyErr γ) : Prop :=
  ∀ c, Cache.Clean cls f c → Cache.Clean cls f (m c).2 ∧
    (∀ A : Nat → Bool, l.any A = false → Cache.part cls A (m c).2 = Cache.part cls A c) ∧ (l = [] → (m c).1 = r)

/-- The computation `m` depends only on the part of the cache with classes in `A`, and changes it alike. -/
def Cached.Agrees (A : Nat → Bool) (m : Cached α β γ) : Prop :=
  ∀ c d, Cache.Clean cls f c → Cache.Clean cls f d → Cache.part cls A c = Cache.part cls A d →
    (m c).1 = (m d).1 ∧ Cache.part cls A (m c).2 = Cache.part cls A (m d).2

variable {cls f}

theorem Cached.Keeps.pure (l : List Nat) (r : Except PyErr γ) : Cached.Keeps cls f (Cached.pure r) l r :=
  fun _ hc => ⟨hc, fun _ _ => rfl, fun _ => rfl⟩

theorem Cached.Keeps.mono {m : Cached α β γ} {l l' : List Nat} {r r' : Except PyErr γ} (h : Cached.Keeps cls f m l r)
    (hl : ∀ x ∈ l, x ∈ l') (hr : l' = [] → r = r') : Cached.Keeps cls f m l' r' := by
  intro c hc
  obtain ⟨h1, h2, h3⟩ := h c hc
  refine ⟨h1, fun A hA => h2 A ?_, fun h => ?_⟩
  · rw [List.any_eq_false] at hA ⊢
    exact fun x hx => hA x (hl x hx)
  · subst h
    rw [← hr rfl]
    exact h3 (List.eq_nil_iff_forall_not_mem.2 fun x hx => by simpa using hl x hx)

theorem Cached.Keeps.andThen {m : Cached α β γ} {k : γ → Cached α β δ} {l : List Nat} {r : Except PyErr γ}
    {s : γ → Except PyErr δ} (h : Cached.Keeps cls f m l r) (hk : ∀ x, Cached.Keeps cls f (k x) l (s x)) :
    Cached.Keeps cls f (m.andThen k) l (r.bind s) := by
  intro c hc
  obtain ⟨h1, h2, h3⟩ := h c hc
  unfold Cached.andThen
  rcases hm : m c with ⟨e, c'⟩
  rw [hm] at h1 h2 h3
  cases e with
  | error e => exact ⟨h1, h2, fun hl => by rw [← h3 hl]; rfl⟩
  | ok x =>
    obtain ⟨g1, g2, g3⟩ := hk x c' h1
    exact ⟨g1, fun A hA => (g2 A hA).trans (h2 A hA), fun hl => by rw [← h3 hl]; exact g3 hl⟩

/-- Keys that are equal have the same classes; without versions they are the same. -/
structure Keyed (cls : α → List Nat) (eq : α → α → Bool) : Prop where
  classes : ∀ a b, eq a b = true → cls a = cls b
  same : ∀ a b, eq a b = true → cls a = [] → a = b

variable {hash : α → Int} {eq : α → α → Bool}

theorem Cached.Keeps.wrap (hq : Keyed cls eq) {key : α} {body : Cached α β β} (h : Cached.Keeps cls f body (cls key) (f key)) :
    Cached.Keeps cls f (Cached.wrap hash eq key body) (cls key) (f key) := by
  intro c hc
  unfold Cached.wrap
  split
  · rename_i e he
    have hm := List.mem_of_find?_eq_some he
    have hp := List.find?_some he
    simp only [Bool.and_eq_true] at hp
    refine ⟨hc, fun _ _ => rfl, fun hl => ?_⟩
    have h1 : cls e.1 = [] := (hq.classes _ _ hp.2).trans hl
    rw [← hc e hm h1, hq.same _ _ hp.2 h1]
  · obtain ⟨h1, h2, h3⟩ := h c hc
    rcases hb : body c with ⟨r, c'⟩
    rw [hb] at h1 h2 h3
    cases r with
    | error e => exact ⟨h1, h2, h3⟩
    | ok x =>
      refine ⟨fun e he hl => ?_, fun A hA => ?_, h3⟩
      · rcases List.mem_cons.1 he with rfl | he
        · exact (h3 hl).symm
        · exact h1 e he hl
      · rw [← h2 A hA]
        simp [Cache.part, hA]

variable {A : Nat → Bool}

theorem Cached.Agrees.pure (r : Except PyErr γ) : Cached.Agrees cls f A (Cached.pure r) := fun _ _ _ _ h => ⟨rfl, h⟩

theorem Cached.Agrees.andThen {m : Cached α β γ} {k : γ → Cached α β δ} {l : List Nat} {r : Except PyErr γ}
    (h : Cached.Agrees cls f A m) (hm : Cached.Keeps cls f m l r) (hk : ∀ x, Cached.Agrees cls f A (k x)) :
    Cached.Agrees cls f A (m.andThen k) := by
  intro c d hc hd hp
  obtain ⟨h1, h2⟩ := h c d hc hd hp
  have kc := (hm c hc).1
  have kd := (hm d hd).1
  unfold Cached.andThen
  rcases hmc : m c with ⟨e, c'⟩
  rcases hmd : m d with ⟨e', d'⟩
  rw [hmc] at h1 h2 kc
  rw [hmd] at h1 h2 kd
  simp only at h1
  subst h1
  cases e with
  | error e => exact ⟨rfl, h2⟩
  | ok x => exact hk x c' d' kc kd h2

theorem find_part (hq : Keyed cls eq) {key : α} (hA : (cls key).any A = true) (c : Cache α β) :
    c.find? (fun e => decide (hash e.1 = hash key) && eq e.1 key) =
      (Cache.part cls A c).find? (fun e => decide (hash e.1 = hash key) && eq e.1 key) := by
  rw [Cache.part, List.find?_filter]
  congr 1
  funext e
  cases he : eq e.1 key with
  | false => simp
  | true => simp [hq.classes _ _ he, hA]

theorem Cached.Agrees.wrap (hq : Keyed cls eq) {key : α} {body : Cached α β β} (hA : ∀ x ∈ cls key, A x = true)
    (hk : Cached.Keeps cls f body (cls key) (f key)) (h : Cached.Agrees cls f A body) :
    Cached.Agrees cls f A (Cached.wrap hash eq key body) := by
  intro c d hc hd hp
  by_cases hl : cls key = []
  · obtain ⟨-, c2, c3⟩ := Cached.Keeps.wrap (hash := hash) hq hk c hc
    obtain ⟨-, d2, d3⟩ := Cached.Keeps.wrap (hash := hash) hq hk d hd
    rw [hl] at c2 d2 c3 d3
    exact ⟨(c3 rfl).trans (d3 rfl).symm, by rw [c2 A rfl, d2 A rfl, hp]⟩
  · have hany : (cls key).any A = true := by
      obtain ⟨x, l, hx⟩ := List.exists_cons_of_ne_nil hl
      rw [List.any_eq_true]
      exact ⟨x, by simp [hx], hA x (by simp [hx])⟩
    unfold Cached.wrap
    rw [find_part hq hany c, find_part hq hany d, hp]
    split
    · exact ⟨rfl, hp⟩
    · obtain ⟨h1, h2⟩ := h c d hc hd hp
      rcases hbc : body c with ⟨r, c'⟩
      rcases hbd : body d with ⟨r', d'⟩
      rw [hbc, hbd] at h1 h2
      simp only at h1 h2
      subst h1
      cases r with
      | error e => exact ⟨rfl, h2⟩
      | ok x => exact ⟨rfl, by simp only [Cache.part, List.filter_cons, hany, if_true]; exact congrArg _ h2⟩

/-- The cache after a history in which every call either stays within `A` or stays out of it: the latter calls do not matter. -/
theorem part_history {call : α → Cached α β β} (hk : ∀ a, Cached.Keeps cls f (call a) (cls a) (f a))
    (ha : ∀ a, (∀ x ∈ cls a, A x = true) → Cached.Agrees cls f A (call a)) :
    ∀ (history : List α), (∀ a ∈ history, (∀ x ∈ cls a, A x = true) ∨ ∀ x ∈ cls a, A x = false) →
      ∀ c d : Cache α β, Cache.Clean cls f c → Cache.Clean cls f d → Cache.part cls A c = Cache.part cls A d →
        let c' := (history.map call).foldl (fun c call => (call c).2) c
        let d' := ((history.filter (fun a => (cls a).any A)).map call).foldl (fun c call => (call c).2) d
        Cache.Clean cls f c' ∧ Cache.Clean cls f d' ∧ Cache.part cls A c' = Cache.part cls A d'
  | [], _, c, d, hc, hd, hp => ⟨hc, hd, hp⟩
  | a :: history, hh, c, d, hc, hd, hp => by
    have ih := part_history hk ha history (fun b hb => hh b (List.mem_cons_of_mem _ hb))
    obtain ⟨c1, c2, -⟩ := hk a c hc
    simp only [List.map_cons, List.foldl_cons, List.filter_cons]
    by_cases hany : (cls a).any A = true
    · rw [if_pos hany, List.map_cons, List.foldl_cons]
      have hall : ∀ x ∈ cls a, A x = true := by
        rcases hh a (List.mem_cons_self ..) with h | h
        · exact h
        · obtain ⟨x, hx, hx'⟩ := List.any_eq_true.1 hany
          exact absurd hx' (by simp [h x hx])
      exact ih _ _ c1 (hk a d hd).1 (ha a hall c d hc hd hp).2
    · rw [if_neg hany]
      exact ih _ _ c1 hd ((c2 A (by simpa using hany)).trans hp)
end

/-! ### Specifiers to sets -/

theorem TVersion.eq_cls {a b : TVersion} (h : a.eq b = true) : a.cls = b.cls := by
  by_contra hn
  rw [TVersion.eq_foreign hn] at h
  cases h

mutual
theorem tspec_eq_classes : ∀ s t : TSpecifier, s.eq t = true → s.classes = t.classes
  | .never, t, h => by cases t <;> simp_all [TSpecifier.eq, TSpecifier.classes]
  | .always, t, h => by cases t <;> simp_all [TSpecifier.eq, TSpecifier.classes]
  | .one _ v, t, h => by
    cases t <;> simp [TSpecifier.eq] at h
    simp [TSpecifier.classes, TVersion.eq_cls h.2]
  | .any l, t, h => by
    cases t <;> simp only [TSpecifier.eq, Bool.false_eq_true] at h
    exact tspec_eq_classesList l _ h
  | .all l, t, h => by
    cases t <;> simp only [TSpecifier.eq, Bool.false_eq_true] at h
    exact tspec_eq_classesList l _ h
theorem tspec_eq_classesList : ∀ s t : List TSpecifier, TSpecifier.eqList s t = true →
    TSpecifier.classesList s = TSpecifier.classesList t
  | [], [], _ => rfl
  | [], _ :: _, h => by simp [TSpecifier.eqList] at h
  | _ :: _, [], h => by simp [TSpecifier.eqList] at h
  | s :: l, t :: m, h => by
    simp only [TSpecifier.eqList, Bool.and_eq_true] at h
    rw [TSpecifier.classesList, TSpecifier.classesList, tspec_eq_classes s t h.1, tspec_eq_classesList l m h.2]
end

mutual
theorem tspec_same : ∀ s t : TSpecifier, s.eq t = true → s.classes = [] → s = t
  | .never, t, h, _ => by cases t <;> simp_all [TSpecifier.eq]
  | .always, t, h, _ => by cases t <;> simp_all [TSpecifier.eq]
  | .one _ v, t, h, hc => by simp [TSpecifier.classes] at hc
  | .any l, t, h, hc => by
    cases t <;> simp only [TSpecifier.eq, Bool.false_eq_true] at h
    rw [tspec_sameList l _ h hc]
  | .all l, t, h, hc => by
    cases t <;> simp only [TSpecifier.eq, Bool.false_eq_true] at h
    rw [tspec_sameList l _ h hc]
theorem tspec_sameList : ∀ s t : List TSpecifier, TSpecifier.eqList s t = true → TSpecifier.classesList s = [] → s = t
  | [], [], _, _ => rfl
  | [], _ :: _, h, _ => by simp [TSpecifier.eqList] at h
  | _ :: _, [], h, _ => by simp [TSpecifier.eqList] at h
  | s :: l, t :: m, h, hc => by
    simp only [TSpecifier.eqList, Bool.and_eq_true] at h
    simp only [TSpecifier.classesList, List.append_eq_nil_iff] at hc
    rw [tspec_same s t h.1 hc.1, tspec_sameList l m h.2 hc.2]
end

theorem tspec_keyed : Keyed TSpecifier.classes TSpecifier.eq := ⟨tspec_eq_classes, tspec_same⟩

section
variable (hash : TSpecifier → Int) (S : ItemSort) (lim : Nat)

mutual
theorem toSet_keeps : ∀ s : TSpecifier,
    Cached.Keeps TSpecifier.classes (TSpecifier.toSet S lim) (s.toSetCached hash S lim) s.classes (s.toSet S lim)
  | .never => by rw [TSpecifier.toSetCached]; exact .wrap tspec_keyed (.pure _ _)
  | .always => by rw [TSpecifier.toSetCached]; exact .wrap tspec_keyed (.pure _ _)
  | .one t v => by rw [TSpecifier.toSetCached]; exact .wrap tspec_keyed (.pure _ _)
  | .all [] => by rw [TSpecifier.toSetCached]; exact .wrap tspec_keyed (.pure _ _)
  | .any [] => by rw [TSpecifier.toSetCached]; exact .wrap tspec_keyed (.pure _ _)
  | .all (s :: l) => by
    rw [TSpecifier.toSetCached]
    exact .wrap tspec_keyed (((toSet_keeps s).mono (by simp +contextual [TSpecifier.classes, TSpecifier.classesList]) (fun _ => rfl)).andThen
      fun x => (reduceAll_keeps l x).mono (by simp +contextual [TSpecifier.classes, TSpecifier.classesList]) (fun _ => rfl))
  | .any (s :: l) => by
    rw [TSpecifier.toSetCached]
    exact .wrap tspec_keyed (((toSet_keeps s).mono (by simp +contextual [TSpecifier.classes, TSpecifier.classesList]) (fun _ => rfl)).andThen
      fun x => (reduceAny_keeps l x).mono (by simp +contextual [TSpecifier.classes, TSpecifier.classesList]) (fun _ => rfl))
theorem reduceAll_keeps : ∀ (l : List TSpecifier) (x : TSet),
    Cached.Keeps TSpecifier.classes (TSpecifier.toSet S lim) (TSpecifier.reduceAllCached hash S lim x l) (TSpecifier.classesList l)
      (TSpecifier.reduceAll S lim x l)
  | [], x => by rw [TSpecifier.reduceAllCached]; exact .pure _ _
  | s :: l, x => by
    rw [TSpecifier.reduceAllCached]
    exact ((toSet_keeps s).mono (by simp +contextual [TSpecifier.classesList]) (fun _ => rfl)).andThen fun y =>
      (Cached.Keeps.pure _ _).andThen fun z => (reduceAll_keeps l z).mono (by simp +contextual [TSpecifier.classesList]) (fun _ => rfl)
theorem reduceAny_keeps : ∀ (l : List TSpecifier) (x : TSet),
    Cached.Keeps TSpecifier.classes (TSpecifier.toSet S lim) (TSpecifier.reduceAnyCached hash S lim x l) (TSpecifier.classesList l)
      (TSpecifier.reduceAny S lim x l)
  | [], x => by rw [TSpecifier.reduceAnyCached]; exact .pure _ _
  | s :: l, x => by
    rw [TSpecifier.reduceAnyCached]
    exact ((toSet_keeps s).mono (by simp +contextual [TSpecifier.classesList]) (fun _ => rfl)).andThen fun y =>
      (Cached.Keeps.pure _ _).andThen fun z => (reduceAny_keeps l z).mono (by simp +contextual [TSpecifier.classesList]) (fun _ => rfl)
end

variable {A : Nat → Bool}

mutual
theorem toSet_agrees : ∀ s : TSpecifier, (∀ x ∈ s.classes, A x = true) →
    Cached.Agrees TSpecifier.classes (TSpecifier.toSet S lim) A (s.toSetCached hash S lim)
  | .never, h => by rw [TSpecifier.toSetCached]; exact .wrap tspec_keyed h (.pure _ _) (.pure _)
  | .always, h => by rw [TSpecifier.toSetCached]; exact .wrap tspec_keyed h (.pure _ _) (.pure _)
  | .one t v, h => by rw [TSpecifier.toSetCached]; exact .wrap tspec_keyed h (.pure _ _) (.pure _)
  | .all [], h => by rw [TSpecifier.toSetCached]; exact .wrap tspec_keyed h (.pure _ _) (.pure _)
  | .any [], h => by rw [TSpecifier.toSetCached]; exact .wrap tspec_keyed h (.pure _ _) (.pure _)
  | .all (s :: l), h => by
    have hs : ∀ x ∈ s.classes, A x = true := fun x hx => h x (by simp [TSpecifier.classes, TSpecifier.classesList, hx])
    have hl : ∀ x ∈ TSpecifier.classesList l, A x = true := fun x hx => h x (by simp [TSpecifier.classes, TSpecifier.classesList, hx])
    rw [TSpecifier.toSetCached]
    exact .wrap tspec_keyed h (((toSet_keeps hash S lim s).mono (by simp +contextual [TSpecifier.classes, TSpecifier.classesList]) (fun _ => rfl)).andThen
      fun x => (reduceAll_keeps hash S lim l x).mono (by simp +contextual [TSpecifier.classes, TSpecifier.classesList]) (fun _ => rfl))
      ((toSet_agrees s hs).andThen (toSet_keeps hash S lim s) fun x => reduceAll_agrees l x hl)
  | .any (s :: l), h => by
    have hs : ∀ x ∈ s.classes, A x = true := fun x hx => h x (by simp [TSpecifier.classes, TSpecifier.classesList, hx])
    have hl : ∀ x ∈ TSpecifier.classesList l, A x = true := fun x hx => h x (by simp [TSpecifier.classes, TSpecifier.classesList, hx])
    rw [TSpecifier.toSetCached]
    exact .wrap tspec_keyed h (((toSet_keeps hash S lim s).mono (by simp +contextual [TSpecifier.classes, TSpecifier.classesList]) (fun _ => rfl)).andThen
      fun x => (reduceAny_keeps hash S lim l x).mono (by simp +contextual [TSpecifier.classes, TSpecifier.classesList]) (fun _ => rfl))
      ((toSet_agrees s hs).andThen (toSet_keeps hash S lim s) fun x => reduceAny_agrees l x hl)
theorem reduceAll_agrees : ∀ (l : List TSpecifier) (x : TSet), (∀ x ∈ TSpecifier.classesList l, A x = true) →
    Cached.Agrees TSpecifier.classes (TSpecifier.toSet S lim) A (TSpecifier.reduceAllCached hash S lim x l)
  | [], x, _ => by rw [TSpecifier.reduceAllCached]; exact .pure _
  | s :: l, x, h => by
    rw [TSpecifier.reduceAllCached]
    exact (toSet_agrees s fun x hx => h x (by simp [TSpecifier.classesList, hx])).andThen (toSet_keeps hash S lim s) fun y =>
      (Cached.Agrees.pure _).andThen (.pure [] _) fun z => reduceAll_agrees l z fun x hx => h x (by simp [TSpecifier.classesList, hx])
theorem reduceAny_agrees : ∀ (l : List TSpecifier) (x : TSet), (∀ x ∈ TSpecifier.classesList l, A x = true) →
    Cached.Agrees TSpecifier.classes (TSpecifier.toSet S lim) A (TSpecifier.reduceAnyCached hash S lim x l)
  | [], x, _ => by rw [TSpecifier.reduceAnyCached]; exact .pure _
  | s :: l, x, h => by
    rw [TSpecifier.reduceAnyCached]
    exact (toSet_agrees s fun x hx => h x (by simp [TSpecifier.classesList, hx])).andThen (toSet_keeps hash S lim s) fun y =>
      (Cached.Agrees.pure _).andThen (.pure [] _) fun z => reduceAny_agrees l z fun x hx => h x (by simp [TSpecifier.classesList, hx])
end
end

/-! ### Sets to specifiers -/

theorem tOptEq_classes {x y : Option TVersion} (h : TVersion.optEq x y = true) :
    x.toList.map (·.cls) = y.toList.map (·.cls) := by
  cases x <;> cases y <;> simp only [TVersion.optEq, Bool.false_eq_true] at h
  · rfl
  · simp [TVersion.eq_cls h]

theorem titem_eq_classes {i j : TItem} (h : i.eq j = true) : i.classes = j.classes := by
  simp only [TItem.eq, Bool.and_eq_true] at h
  rw [TItem.classes, TItem.classes, List.map_append, List.map_append, tOptEq_classes h.1.1.1, tOptEq_classes h.1.1.2]

theorem titem_classless {i : TItem} (h : i.classes = []) : ∃ a b, i = .range ⟨none, none, a, b⟩ := by
  cases i with
  | point v => simp [TItem.classes, TItem.fields] at h
  | range r =>
    obtain ⟨x, y, a, b⟩ := r
    simp only [TItem.classes, TItem.fields, List.map_eq_nil_iff, List.append_eq_nil_iff, Option.toList_eq_nil_iff] at h
    exact ⟨a, b, by rw [h.1, h.2]⟩

theorem titem_same {i j : TItem} (h : i.eq j = true) (hc : i.classes = []) : i = j := by
  obtain ⟨a, b, rfl⟩ := titem_classless hc
  obtain ⟨a', b', rfl⟩ := titem_classless ((titem_eq_classes h).symm.trans hc)
  simp [TItem.eq, TItem.fields] at h
  rw [h.1.2, h.2]

theorem titems_eq : ∀ {l m : List TItem}, l.length = m.length → (l.zip m).all (fun p => p.1.eq p.2) = true →
    l.flatMap TItem.classes = m.flatMap TItem.classes ∧ (l.flatMap TItem.classes = [] → l = m)
  | [], [], _, _ => ⟨rfl, fun _ => rfl⟩
  | [], _ :: _, h, _ => by simp at h
  | _ :: _, [], h, _ => by simp at h
  | i :: l, j :: m, h, h' => by
    simp only [List.zip_cons_cons, List.all_cons, Bool.and_eq_true] at h'
    obtain ⟨h1, h2⟩ := titems_eq (l := l) (m := m) (by simpa using h) h'.2
    refine ⟨by rw [List.flatMap_cons, List.flatMap_cons, h1, titem_eq_classes h'.1], fun hc => ?_⟩
    rw [List.flatMap_cons, List.append_eq_nil_iff] at hc
    rw [titem_same h'.1 hc.1, h2 hc.2]

theorem tset_keyed : Keyed TSet.classes TSet.eq := by
  constructor
  · intro s t h
    cases s <;> cases t <;> simp only [TSet.eq, Bool.false_eq_true, Bool.and_eq_true, beq_iff_eq] at h
    · rfl
    · simp [TSet.classes, TSet.extract, titem_eq_classes h]
    · exact (titems_eq h.1 h.2).1
  · intro s t h hc
    cases s <;> cases t <;> simp only [TSet.eq, Bool.false_eq_true, Bool.and_eq_true, beq_iff_eq] at h
    · rfl
    · rw [titem_same h (by simpa [TSet.classes, TSet.extract] using hc)]
    · rw [(titems_eq h.1 h.2).2 hc]

section
variable (hash : TSet → Int) (S : ItemSort) (lim : Nat)

theorem fromItem_keeps (i : TItem) : Cached.Keeps TSet.classes (TSpecifier.fromSet S lim) (TSpecifier.fromItemCached hash i) i.classes
    (TSpecifier.fromItem i) := by
  have h := Cached.Keeps.wrap (hash := hash) tset_keyed (key := .item i) (f := TSpecifier.fromSet S lim)
    (.pure (TSet.classes (.item i)) (TSpecifier.fromItem i))
  exact h.mono (by simp [TSet.classes, TSet.extract]) (fun _ => rfl)

theorem fromItems_keeps : ∀ l : List TItem, Cached.Keeps TSet.classes (TSpecifier.fromSet S lim) (TSpecifier.fromItemsCached hash l)
    (l.flatMap TItem.classes) (TSpecifier.fromItems l)
  | [] => .pure _ _
  | i :: l =>
    ((fromItem_keeps hash S lim i).mono (by simp +contextual) (fun _ => rfl)).andThen fun s =>
      ((fromItems_keeps l).mono (by simp +contextual) (fun _ => rfl)).andThen fun m => .pure _ _

theorem fromUnion_keeps (l : List TItem) : Cached.Keeps TSet.classes (TSpecifier.fromSet S lim)
    ((Cached.pure (TSpecifier.tryExcludeVersion S lim l)).andThen fun
      | some s => .pure (.ok s)
      | none => (TSpecifier.fromItemsCached hash l).andThen fun l => .pure (TSpecifier.anyOf l))
    (l.flatMap TItem.classes) (TSpecifier.fromSet S lim (.union l)) :=
  (Cached.Keeps.pure _ _).andThen fun s => by
    cases s with
    | some s => exact .pure _ _
    | none => exact (fromItems_keeps hash S lim l).andThen fun m => .pure _ _

theorem fromSet_keeps (s : TSet) :
    Cached.Keeps TSet.classes (TSpecifier.fromSet S lim) (TSpecifier.fromSetCached hash S lim s) s.classes (TSpecifier.fromSet S lim s) := by
  cases s with
  | empty => exact .wrap tset_keyed (.pure _ _)
  | item i => exact (fromItem_keeps hash S lim i).mono (by simp [TSet.classes, TSet.extract]) (fun _ => rfl)
  | union l => exact .wrap tset_keyed (fromUnion_keeps hash S lim l)

variable {A : Nat → Bool}

theorem fromItem_agrees (i : TItem) (h : ∀ x ∈ i.classes, A x = true) :
    Cached.Agrees TSet.classes (TSpecifier.fromSet S lim) A (TSpecifier.fromItemCached hash i) :=
  .wrap tset_keyed (by simpa [TSet.classes, TSet.extract] using h) (.pure _ _) (.pure _)

theorem fromItems_agrees : ∀ l : List TItem, (∀ x ∈ l.flatMap TItem.classes, A x = true) →
    Cached.Agrees TSet.classes (TSpecifier.fromSet S lim) A (TSpecifier.fromItemsCached hash l)
  | [], _ => .pure _
  | i :: l, h =>
    (fromItem_agrees hash S lim i fun x hx => h x (by simp [hx])).andThen (fromItem_keeps hash S lim i) fun s =>
      (fromItems_agrees l fun x hx => h x (by rw [List.flatMap_cons, List.mem_append]; exact .inr hx)).andThen
        (fromItems_keeps hash S lim l) fun m => .pure _

theorem fromSet_agrees (s : TSet) (h : ∀ x ∈ s.classes, A x = true) :
    Cached.Agrees TSet.classes (TSpecifier.fromSet S lim) A (TSpecifier.fromSetCached hash S lim s) := by
  cases s with
  | empty => exact .wrap tset_keyed h (.pure _ _) (.pure _)
  | item i => exact fromItem_agrees hash S lim i (by simpa [TSet.classes, TSet.extract] using h)
  | union l =>
    refine .wrap tset_keyed h (fromUnion_keeps hash S lim l) ((Cached.Agrees.pure _).andThen (.pure [] _) fun s => ?_)
    cases s with
    | some s => exact .pure _
    | none => exact (fromItems_agrees hash S lim l h).andThen (fromItems_keeps hash S lim l) fun m => .pure _
end

/-! ### One class -/

section
variable {α α' β β' γ γ' δ δ' : Type} (p : α → α') (q : β → β')

/-- The computation `m'` is `m` on mapped entries. -/
def Cached.Maps (g : γ → γ') (m : Cached α β γ) (m' : Cached α' β' γ') : Prop :=
  ∀ c : Cache α β, m' (c.map (Prod.map p q)) = ((m c).1.map g, (m c).2.map (Prod.map p q))

variable {p q}

theorem Cached.Maps.pure {g : γ → γ'} {r : Except PyErr γ} {r' : Except PyErr γ'} (h : r' = r.map g) :
    Cached.Maps p q g (Cached.pure r) (Cached.pure r') := fun c => by rw [h]; rfl

theorem Cached.Maps.andThen {g : γ → γ'} {k : δ → δ'} {m : Cached α β γ} {m' : Cached α' β' γ'} {n : γ → Cached α β δ}
    {n' : γ' → Cached α' β' δ'} (h : Cached.Maps p q g m m') (hn : ∀ x, Cached.Maps p q k (n x) (n' (g x))) :
    Cached.Maps p q k (m.andThen n) (m'.andThen n') := by
  intro c
  unfold Cached.andThen
  rw [h c]
  rcases m c with ⟨r, c'⟩
  cases r with
  | error e => rfl
  | ok x => exact hn x c'

theorem Cached.Maps.wrap {hash : α → Int} {hash' : α' → Int} {eq : α → α → Bool} {eq' : α' → α' → Bool} {key : α}
    {body : Cached α β β} {body' : Cached α' β' β'} (hh : ∀ a, hash' (p a) = hash a) (he : ∀ a b, eq' (p a) (p b) = eq a b)
    (h : Cached.Maps p q q body body') : Cached.Maps p q q (Cached.wrap hash eq key body) (Cached.wrap hash' eq' (p key) body') := by
  intro c
  unfold Cached.wrap
  rw [List.find?_map]
  have : ((fun e => decide (hash' e.1 = hash' (p key)) && eq' e.1 (p key)) ∘ Prod.map p q) =
      fun e : α × β => decide (hash e.1 = hash key) && eq e.1 key := by
    funext e
    simp [hh, he]
  rw [this]
  cases c.find? (fun e => decide (hash e.1 = hash key) && eq e.1 key) with
  | some e => rfl
  | none =>
    simp only [Option.map_none, h c]
    rcases body c with ⟨r, c'⟩
    cases r <;> rfl

theorem maps_history {call : α → Cached α β γ} {call' : α' → Cached α' β' γ'} {g : γ → γ'}
    (h : ∀ a, Cached.Maps p q g (call a) (call' (p a))) : ∀ (l : List α) (c : Cache α β),
    ((l.map p).map call').foldl (fun c call => (call c).2) (c.map (Prod.map p q)) =
      ((l.map call).foldl (fun c call => (call c).2) c).map (Prod.map p q)
  | [], c => rfl
  | a :: l, c => by
    simp only [List.map_cons, List.foldl_cons]
    rw [h a c]
    exact maps_history h l _
end

section
variable {hash : TSpecifier → Int} (S : ItemSort) (lim : Nat) {c : Nat} {H : Hasher}
variable (hh : ∀ s : Specifier, hash (s.ofClass c) = H.specifier s)
include hh

mutual
theorem toSetCached_ofClass : ∀ s : Specifier,
    Cached.Maps (Specifier.ofClass c) (VSet.ofClass c) (VSet.ofClass c) (s.toSetCached H lim) ((s.ofClass c).toSetCached hash S lim)
  | .never => by
    rw [Specifier.toSetCached, Specifier.ofClass, TSpecifier.toSetCached]
    exact .wrap (key := .never) hh (specEq_ofClass c) (.pure rfl)
  | .always => by
    rw [Specifier.toSetCached, Specifier.ofClass, TSpecifier.toSetCached]
    exact .wrap (key := .always) hh (specEq_ofClass c) (.pure rfl)
  | .one o => by
    rw [Specifier.toSetCached, Specifier.ofClass, TSpecifier.toSetCached]
    exact .wrap (key := .one o) hh (specEq_ofClass c) (.pure (translate_ofClass S c lim o.type o.version))
  | .all [] => by
    rw [Specifier.toSetCached, Specifier.ofClass, Specifier.ofClassList, TSpecifier.toSetCached]
    exact .wrap (key := .all []) hh (specEq_ofClass c) (.pure rfl)
  | .any [] => by
    rw [Specifier.toSetCached, Specifier.ofClass, Specifier.ofClassList, TSpecifier.toSetCached]
    exact .wrap (key := .any []) hh (specEq_ofClass c) (.pure rfl)
  | .all (s :: l) => by
    rw [Specifier.toSetCached, Specifier.ofClass, Specifier.ofClassList, TSpecifier.toSetCached]
    exact .wrap (key := .all (s :: l)) hh (specEq_ofClass c) ((toSetCached_ofClass s).andThen
      (n := fun x => Specifier.reduceAllCached H lim x l)
      (n' := fun x => TSpecifier.reduceAllCached hash S lim x (Specifier.ofClassList c l)) fun x => reduceAllCached_ofClass l x)
  | .any (s :: l) => by
    rw [Specifier.toSetCached, Specifier.ofClass, Specifier.ofClassList, TSpecifier.toSetCached]
    exact .wrap (key := .any (s :: l)) hh (specEq_ofClass c) ((toSetCached_ofClass s).andThen
      (n := fun x => Specifier.reduceAnyCached H lim x l)
      (n' := fun x => TSpecifier.reduceAnyCached hash S lim x (Specifier.ofClassList c l)) fun x => reduceAnyCached_ofClass l x)
theorem reduceAllCached_ofClass : ∀ (l : List Specifier) (x : VSet),
    Cached.Maps (Specifier.ofClass c) (VSet.ofClass c) (VSet.ofClass c) (Specifier.reduceAllCached H lim x l)
      (TSpecifier.reduceAllCached hash S lim (x.ofClass c) (Specifier.ofClassList c l))
  | [], x => by
    rw [Specifier.reduceAllCached, Specifier.ofClassList, TSpecifier.reduceAllCached]
    exact .pure rfl
  | s :: l, x => by
    rw [Specifier.reduceAllCached, Specifier.ofClassList, TSpecifier.reduceAllCached]
    exact (toSetCached_ofClass s).andThen fun y =>
      (Cached.Maps.pure (setIntersection_ofClass S c lim x y)).andThen fun z => reduceAllCached_ofClass l z
theorem reduceAnyCached_ofClass : ∀ (l : List Specifier) (x : VSet),
    Cached.Maps (Specifier.ofClass c) (VSet.ofClass c) (VSet.ofClass c) (Specifier.reduceAnyCached H lim x l)
      (TSpecifier.reduceAnyCached hash S lim (x.ofClass c) (Specifier.ofClassList c l))
  | [], x => by
    rw [Specifier.reduceAnyCached, Specifier.ofClassList, TSpecifier.reduceAnyCached]
    exact .pure rfl
  | s :: l, x => by
    rw [Specifier.reduceAnyCached, Specifier.ofClassList, TSpecifier.reduceAnyCached]
    exact (toSetCached_ofClass s).andThen fun y =>
      (Cached.Maps.pure (setUnion_ofClass S c lim x y)).andThen fun z => reduceAnyCached_ofClass l z
end
end

theorem mkOne_ofClass (c : Nat) (t : OpType) (v : Version) :
    TSpecifier.mkOne t ⟨c, v⟩ = (do .ok (Specifier.one (← Operator.create t v)) : Except PyErr Specifier).map (·.ofClass c) := by
  simp only [TSpecifier.mkOne, Operator.create, bind, Except.bind]
  split <;> rfl

theorem ofClassList_map (c : Nat) : ∀ l : List Specifier, Specifier.ofClassList c l = l.map (·.ofClass c)
  | [] => rfl
  | s :: l => by rw [Specifier.ofClassList, ofClassList_map c l, List.map_cons]

theorem anyOf_ofClass (c : Nat) (l : List Specifier) :
    TSpecifier.anyOf (l.map (·.ofClass c)) = (Specifier.anyOf l).map (·.ofClass c) := by
  cases l with
  | nil => rfl
  | cons s l =>
    cases l with
    | nil => rfl
    | cons t l => simp [TSpecifier.anyOf, Specifier.anyOf, Specifier.mkAny, Specifier.checkSpecifiers, bind, Except.bind, Except.map,
        Specifier.ofClass, ofClassList_map]

theorem tryExclude_ofClass (S : ItemSort) (c lim : Nat) (l : List Item) :
    TSpecifier.tryExcludeVersion S lim (l.map (·.ofClass c)) = (Specifier.tryExcludeVersion lim l).map (·.map (·.ofClass c)) := by
  simp only [TSpecifier.tryExcludeVersion, Specifier.tryExcludeVersion, excludeVersion_ofClass, bind, Except.bind]
  cases VSet.excludeVersion lim l with
  | error e => rfl
  | ok o =>
    cases o with
    | none => rfl
    | some v =>
      simp only [Except.map, Option.map, mkOne_ofClass, Specifier.unpinVersion, bind, Except.bind]
      cases Operator.create .notEqual v <;> rfl

theorem tryRangeSimple_ofClass (c : Nat) (i : Item) :
    TSpecifier.tryRangeSimple (i.ofClass c) = (Specifier.tryRangeSimple i).map (·.map (·.ofClass c)) := by
  simp only [TSpecifier.tryRangeSimple, Specifier.tryRangeSimple, isEmpty_ofClass, isUniversal_ofClass, isPoint_ofClass,
    version_ofClass, bind, Except.bind]
  split
  · rfl
  · split
    · rfl
    · split
      · cases i.version with
        | error e => rfl
        | ok v =>
          simp only [Except.map, mkOne_ofClass, Specifier.pinVersion, bind, Except.bind]
          cases Operator.create .doubleEqual v <;> rfl
      · rfl

theorem create_simple {t : OpType} (h : t ≠ .tildeEqual) (v : Version) : Operator.create t v = .ok ⟨t, v⟩ := by
  simp [Operator.create, h]

theorem mkOne_simple {t : OpType} (h : t ≠ .tildeEqual) (v : TVersion) : TSpecifier.mkOne t v = .ok (.one t v) := by
  simp [TSpecifier.mkOne, h]

theorem tryRangeUnwrap_ofClass (c : Nat) (r : VRange) :
    TSpecifier.tryRangeUnwrap ⟨r.min.map (⟨c, ·⟩), r.max.map (⟨c, ·⟩), r.includeMin, r.includeMax⟩ =
      (Specifier.tryRangeUnwrap r.min r.max r.includeMin r.includeMax).map (·.ofClass c) := by
  obtain ⟨x, y, a, b⟩ := r
  cases x <;> cases y <;> cases a <;> cases b <;> rfl

theorem fromItem_ofClass (c : Nat) (i : Item) : TSpecifier.fromItem (i.ofClass c) = (Specifier.fromItem i).map (·.ofClass c) := by
  cases i with
  | point v => exact mkOne_ofClass c .doubleEqual v
  | range r =>
    have h := tryRangeSimple_ofClass c (.range r)
    simp only [Item.ofClass] at h ⊢
    simp only [TSpecifier.fromItem, Specifier.fromItem, h, bind, Except.bind]
    cases Specifier.tryRangeSimple (.range r) with
    | error e => rfl
    | ok o =>
      cases o with
      | some s => rfl
      | none => exact tryRangeUnwrap_ofClass c r

theorem fromItems_ofClass (c : Nat) : ∀ l : List Item,
    TSpecifier.fromItems (l.map (·.ofClass c)) = (l.mapM Specifier.fromItem).map (·.map (·.ofClass c))
  | [] => rfl
  | i :: l => by
    simp only [List.map_cons, TSpecifier.fromItems, fromItem_ofClass, fromItems_ofClass c l, List.mapM_cons, bind, Except.bind]
    cases Specifier.fromItem i with
    | error e => rfl
    | ok s => cases l.mapM Specifier.fromItem <;> rfl

theorem fromSet_ofClass (S : ItemSort) (c lim : Nat) (s : VSet) :
    TSpecifier.fromSet S lim (s.ofClass c) = (Specifier.fromSet lim s).map (·.ofClass c) := by
  cases s with
  | empty => rfl
  | item i => exact fromItem_ofClass c i
  | union l =>
    simp only [VSet.ofClass, TSpecifier.fromSet, Specifier.fromSet, tryExclude_ofClass, bind, Except.bind]
    cases Specifier.tryExcludeVersion lim l with
    | error e => rfl
    | ok o =>
      cases o with
      | some s => rfl
      | none =>
        simp only [Except.map, Option.map, fromItems_ofClass]
        cases l.mapM Specifier.fromItem with
        | error e => rfl
        | ok m => exact anyOf_ofClass c m

section
variable {hash : TSet → Int} (S : ItemSort) (lim : Nat) {c : Nat} {H : Hasher} (hh : ∀ s : VSet, hash (s.ofClass c) = H.vset s)
include hh

theorem fromItemCached_ofClass (i : Item) :
    Cached.Maps (VSet.ofClass c) (Specifier.ofClass c) (Specifier.ofClass c) (Specifier.fromItemCached H i)
      (TSpecifier.fromItemCached hash (i.ofClass c)) := by
  unfold Specifier.fromItemCached TSpecifier.fromItemCached
  exact Cached.Maps.wrap (p := VSet.ofClass c) (q := Specifier.ofClass c) (key := VSet.item i) hh (setEq_ofClass c)
    (.pure (fromItem_ofClass c i))

theorem fromItemsCached_ofClass : ∀ l : List Item,
    Cached.Maps (VSet.ofClass c) (Specifier.ofClass c) (List.map (Specifier.ofClass c)) (Specifier.fromItemsCached H l)
      (TSpecifier.fromItemsCached hash (l.map (·.ofClass c)))
  | [] => .pure rfl
  | i :: l => (fromItemCached_ofClass hh i).andThen fun _ => (fromItemsCached_ofClass l).andThen fun _ => .pure rfl

theorem fromSetCached_ofClass (s : VSet) :
    Cached.Maps (VSet.ofClass c) (Specifier.ofClass c) (Specifier.ofClass c) (Specifier.fromSetCached H lim s)
      (TSpecifier.fromSetCached hash S lim (s.ofClass c)) := by
  cases s with
  | empty =>
    exact Cached.Maps.wrap (p := VSet.ofClass c) (q := Specifier.ofClass c) (key := VSet.empty) hh (setEq_ofClass c)
      (.pure (r := .ok .never) rfl)
  | item i => exact fromItemCached_ofClass hh i
  | union l =>
    refine .wrap (key := .union l) hh (setEq_ofClass c) ((Cached.Maps.pure (tryExclude_ofClass S c lim l)).andThen fun o => ?_)
    cases o with
    | some s => exact .pure rfl
    | none => exact (fromItemsCached_ofClass hh l).andThen fun m => .pure (anyOf_ofClass c m)
end

/-! ### Parsers -/

theorem wrap_key {α β : Type} [DecidableEq α] (hash : α → Int) (f : α → Except PyErr β) (a : α) (c : Cache α β)
    (hc : ∀ e ∈ c, f e.1 = .ok e.2) :
    let r := Cached.wrap hash (fun a b => decide (a = b)) a (.pure (f a)) c
    r.1 = f a ∧ ∀ e ∈ r.2, f e.1 = .ok e.2 := by
  unfold Cached.wrap
  dsimp only
  split
  · next e he =>
    have := List.find?_some he
    simp only [Bool.and_eq_true, decide_eq_true_eq] at this
    exact ⟨by rw [← this.2, hc e (List.mem_of_find?_eq_some he)], hc⟩
  · unfold Cached.pure
    cases hf : f a with
    | error e => exact ⟨rfl, hc⟩
    | ok x =>
      refine ⟨rfl, fun e he => ?_⟩
      rcases List.mem_cons.1 he with rfl | he
      · exact hf
      · exact hc e he

theorem after_key {α β : Type} [DecidableEq α] (hash : α → Int) (f : α → Except PyErr β) : ∀ (l : List α) (c : Cache α β),
    (∀ e ∈ c, f e.1 = .ok e.2) →
    ∀ e ∈ (l.map (fun a => Cached.wrap hash (fun a b => decide (a = b)) a (.pure (f a)))).foldl (fun c call => (call c).2) c,
      f e.1 = .ok e.2
  | [], _, hc => hc
  | a :: l, c, hc => after_key hash f l _ (wrap_key hash f a c hc).2

end Verif
