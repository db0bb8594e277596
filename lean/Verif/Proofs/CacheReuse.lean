import Verif.Model.SubclassFunctions
import Verif.Proofs.SubclassCaches
import Verif.Proofs.Caches
/-!
# What a cache holds, it keeps
-/

namespace Verif

section
variable {α β γ δ : Type} (hash : α → Int) (eq : α → α → Bool)

/-- What the cache holds for the key. -/
def Cache.found (c : Cache α β) (key : α) : Option β :=
  (c.find? (fun entry => decide (hash entry.1 = hash key) && eq entry.1 key)).map (·.2)

/-- The computation keeps what the cache holds. -/
def Cached.Stable (m : Cached α β γ) : Prop :=
  ∀ c key x, Cache.found hash eq c key = some x → Cache.found hash eq (m c).2 key = some x

variable {hash eq}

theorem Cached.Stable.pure (r : Except PyErr γ) : Cached.Stable (β := β) hash eq (Cached.pure r) := fun _ _ _ h => h

theorem Cached.Stable.andThen {m : Cached α β γ} {k : γ → Cached α β δ} (h : Cached.Stable hash eq m)
    (hk : ∀ x, Cached.Stable hash eq (k x)) : Cached.Stable hash eq (m.andThen k) := by
  intro c key x hx
  have h1 := h c key x hx
  unfold Cached.andThen
  rcases hm : m c with ⟨e, c'⟩
  rw [hm] at h1
  cases e with
  | error e => exact h1
  | ok y => exact hk y c' key x h1

/-- `==` of the keys is an equivalence. -/
structure IsEquiv (eq : α → α → Bool) : Prop where
  refl : ∀ a, eq a a = true
  symm : ∀ a b, eq a b = true → eq b a = true
  trans : ∀ a b c, eq a b = true → eq b c = true → eq a c = true

theorem found_some {c : Cache α β} {key : α} {x : β} (h : Cache.found hash eq c key = some x) :
    ∃ e ∈ c, hash e.1 = hash key ∧ eq e.1 key = true ∧ e.2 = x := by
  unfold Cache.found at h
  rw [Option.map_eq_some_iff] at h
  obtain ⟨e, he, rfl⟩ := h
  have := List.find?_some he
  simp only [Bool.and_eq_true, decide_eq_true_eq] at this
  exact ⟨e, List.mem_of_find?_eq_some he, this.1, this.2, rfl⟩

/-- Equal keys with equal hashes find the same. -/
theorem found_congr (E : IsEquiv eq) (c : Cache α β) {a b : α} (hh : hash a = hash b) (he : eq a b = true) :
    Cache.found hash eq c a = Cache.found hash eq c b := by
  unfold Cache.found
  congr 2
  funext e
  rw [hh, show eq e.1 a = eq e.1 b from Bool.eq_iff_iff.2 ⟨fun h => E.trans _ _ _ h he, fun h => E.trans _ _ _ h (E.symm _ _ he)⟩]

theorem wrap_found {c : Cache α β} {key : α} {body : Cached α β β} {x : β} (h : Cache.found hash eq c key = some x) :
    Cached.wrap hash eq key body c = (.ok x, c) := by
  unfold Cache.found at h
  rw [Option.map_eq_some_iff] at h
  obtain ⟨e, he, rfl⟩ := h
  unfold Cached.wrap
  rw [he]

theorem Cached.Stable.wrap (E : IsEquiv eq) {key : α} {body : Cached α β β} (h : Cached.Stable hash eq body) :
    Cached.Stable hash eq (Cached.wrap hash eq key body) := by
  intro c k x hx
  cases hf : Cache.found hash eq c key with
  | some y => rw [wrap_found hf]; exact hx
  | none =>
    have hb := h c k x hx
    unfold Cached.wrap
    rw [show c.find? (fun entry => decide (hash entry.1 = hash key) && eq entry.1 key) = none from Option.map_eq_none_iff.1 hf]
    rcases hm : body c with ⟨e, c'⟩
    rw [hm] at hb
    cases e with
    | error e => exact hb
    | ok y =>
      show Cache.found hash eq ((key, y) :: c') k = some x
      unfold Cache.found
      rw [List.find?_cons_of_neg]
      · exact hb
      · intro hk
        simp only [Bool.and_eq_true, decide_eq_true_eq] at hk
        rw [found_congr E c hk.1 hk.2, hx] at hf
        cases hf

/-- What a call returns is then held for its key. -/
theorem wrap_returns (E : IsEquiv eq) {key : α} {body : Cached α β β} {c : Cache α β} {x : β}
    (h : (Cached.wrap hash eq key body c).1 = .ok x) : Cache.found hash eq (Cached.wrap hash eq key body c).2 key = some x := by
  cases hf : Cache.found hash eq c key with
  | some y =>
    rw [wrap_found hf] at h ⊢
    cases h
    exact hf
  | none =>
    unfold Cached.wrap at h ⊢
    rw [show c.find? (fun entry => decide (hash entry.1 = hash key) && eq entry.1 key) = none from Option.map_eq_none_iff.1 hf] at h ⊢
    rcases hm : body c with ⟨e, c'⟩
    rw [hm] at h
    cases e with
    | error e => cases h
    | ok y =>
      cases h
      unfold Cache.found
      rw [List.find?_cons_of_pos]
      · rfl
      · simp [E.refl]

/-- A function with a cache: every call goes through the wrapper. -/
structure CachedFunction (hash : α → Int) (eq : α → α → Bool) (call : α → Cached α β β) : Prop where
  equiv : IsEquiv eq
  wrapped : ∀ a, ∃ body, call a = Cached.wrap hash eq a body
  stable : ∀ a, Cached.Stable hash eq (call a)

variable {call : α → Cached α β β}

theorem CachedFunction.hit (F : CachedFunction hash eq call) {a : α} {c : Cache α β} {x : β} (h : Cache.found hash eq c a = some x) :
    call a c = (.ok x, c) := by
  obtain ⟨body, hb⟩ := F.wrapped a
  rw [hb]
  exact wrap_found h

theorem CachedFunction.returns (F : CachedFunction hash eq call) {a : α} {c : Cache α β} {x : β} (h : (call a c).1 = .ok x) :
    Cache.found hash eq (call a c).2 a = some x := by
  obtain ⟨body, hb⟩ := F.wrapped a
  rw [hb] at h ⊢
  exact wrap_returns F.equiv h

theorem stable_foldl {calls : List (Cached α β β)} (h : ∀ m ∈ calls, Cached.Stable hash eq m) : ∀ {c : Cache α β} {key : α} {x : β},
    Cache.found hash eq c key = some x → Cache.found hash eq (calls.foldl (fun c m => (m c).2) c) key = some x := by
  induction calls with
  | nil => exact fun h => h
  | cons m l ih =>
    intro c key x hx
    exact ih (fun m' hm' => h m' (List.mem_cons_of_mem _ hm')) (h m List.mem_cons_self c key x hx)

/-- What a call has returned, an equal call returns again after any further calls, and it changes nothing. -/
theorem CachedFunction.again (F : CachedFunction hash eq call) (before later : List α) (a b : α) (hh : hash a = hash b)
    (he : eq a b = true) (x : β) (h : (call a (Cached.after (before.map call))).1 = .ok x) :
    call b (Cached.after ((before ++ a :: later).map call)) = (.ok x, Cached.after ((before ++ a :: later).map call)) := by
  refine F.hit ?_
  rw [← found_congr F.equiv _ hh he]
  unfold Cached.after at h ⊢
  rw [List.map_append, List.foldl_append, List.map_cons, List.foldl_cons]
  refine stable_foldl (fun m hm => ?_) (F.returns h)
  obtain ⟨d, -, rfl⟩ := List.mem_map.1 hm
  exact F.stable d

/-! ### A second cache in front -/

/-- A function `p` followed by the cached function. -/
def readThen {κ : Type} (p : κ → Except PyErr α) (call : α → Cached α β β) (k : κ) : Cached α β β :=
  (Cached.pure (p k)).andThen call

/-- The entries in front are held behind as well. -/
def Backed {κ : Type} (hash : α → Int) (eq : α → α → Bool) (p : κ → Except PyErr α) (front : Cache κ β) (c : Cache α β) : Prop :=
  ∀ e ∈ front, ∃ a, p e.1 = .ok a ∧ Cache.found hash eq c a = some e.2

theorem Backed.stable {κ : Type} {p : κ → Except PyErr α} {front : Cache κ β} {c : Cache α β} (h : Backed hash eq p front c)
    {m : Cached α β γ} (hm : Cached.Stable hash eq m) : Backed hash eq p front (m c).2 := by
  intro e he
  obtain ⟨a, h1, h2⟩ := h e he
  exact ⟨a, h1, hm c a _ h2⟩

end

/-! ### The keys of the library -/

theorem specifier_equiv : IsEquiv Specifier.eq := ⟨Specifier.eq_refl, Specifier.eq_symm, Specifier.eq_trans⟩

theorem TVersion.eq_iff (a b : TVersion) : a.eq b = true ↔ a.cls = b.cls ∧ a.version.key = b.version.key := by
  unfold TVersion.eq TVersion.eqMethod
  by_cases h : a.cls = b.cls
  · simp [h, veq_iff]
  · simp [h, Ne.symm h]

namespace TSpecifier
mutual
theorem eq_refl : ∀ s : TSpecifier, s.eq s = true
  | never => rfl
  | always => rfl
  | one t v => by simp only [TSpecifier.eq, Bool.and_eq_true, Specifier.opType_eq_iff, TVersion.eq_iff, and_self]
  | any l => by simp only [TSpecifier.eq]; exact eqList_refl l
  | all l => by simp only [TSpecifier.eq]; exact eqList_refl l
theorem eqList_refl : ∀ l : List TSpecifier, eqList l l = true
  | [] => rfl
  | s :: l => by simp only [eqList, Bool.and_eq_true]; exact ⟨eq_refl s, eqList_refl l⟩
end

mutual
theorem eq_symm : ∀ s t : TSpecifier, s.eq t = true → t.eq s = true
  | never, t, h => by cases t <;> simp [TSpecifier.eq] at h ⊢
  | always, t, h => by cases t <;> simp [TSpecifier.eq] at h ⊢
  | one o v, t, h => by
    cases t <;> simp only [TSpecifier.eq, Bool.and_eq_true, Specifier.opType_eq_iff, TVersion.eq_iff, Bool.false_eq_true] at h ⊢
    exact ⟨h.1.symm, h.2.1.symm, h.2.2.symm⟩
  | any l, t, h => by
    cases t <;> simp [TSpecifier.eq] at h ⊢
    exact eqList_symm l _ h
  | all l, t, h => by
    cases t <;> simp [TSpecifier.eq] at h ⊢
    exact eqList_symm l _ h
theorem eqList_symm : ∀ l m : List TSpecifier, eqList l m = true → eqList m l = true
  | [], m, h => by cases m <;> simp [eqList] at h ⊢
  | s :: l, m, h => by
    cases m with
    | nil => simp [eqList] at h
    | cons t m =>
      simp only [eqList, Bool.and_eq_true] at h ⊢
      exact ⟨eq_symm s t h.1, eqList_symm l m h.2⟩
end

mutual
theorem eq_trans : ∀ s t u : TSpecifier, s.eq t = true → t.eq u = true → s.eq u = true
  | never, t, u, h, g => by cases t <;> cases u <;> simp [TSpecifier.eq] at h g ⊢
  | always, t, u, h, g => by cases t <;> cases u <;> simp [TSpecifier.eq] at h g ⊢
  | one o v, t, u, h, g => by
    cases t <;> cases u <;>
      simp only [TSpecifier.eq, Bool.and_eq_true, Specifier.opType_eq_iff, TVersion.eq_iff, Bool.false_eq_true] at h g ⊢
    exact ⟨h.1.trans g.1, h.2.1.trans g.2.1, h.2.2.trans g.2.2⟩
  | any l, t, u, h, g => by
    cases t <;> cases u <;> simp [TSpecifier.eq] at h g ⊢
    exact eqList_trans l _ _ h g
  | all l, t, u, h, g => by
    cases t <;> cases u <;> simp [TSpecifier.eq] at h g ⊢
    exact eqList_trans l _ _ h g
theorem eqList_trans : ∀ l m n : List TSpecifier, eqList l m = true → eqList m n = true → eqList l n = true
  | [], m, n, h, g => by cases m <;> cases n <;> simp [eqList] at h g ⊢
  | s :: l, m, n, h, g => by
    cases m with
    | nil => simp [eqList] at h
    | cons t m => cases n with
      | nil => simp [eqList] at g
      | cons u n =>
        simp only [eqList, Bool.and_eq_true] at h g ⊢
        exact ⟨eq_trans s t u h.1 g.1, eqList_trans l m n h.2 g.2⟩
end
end TSpecifier

theorem tspecifier_equiv : IsEquiv TSpecifier.eq := ⟨TSpecifier.eq_refl, TSpecifier.eq_symm, TSpecifier.eq_trans⟩

/-- Item by item. -/
theorem lists_equiv {α : Type} {r : α → α → Bool} (h : IsEquiv r) :
    IsEquiv (fun xs ys : List α => xs.length == ys.length && (xs.zip ys).all (fun p => r p.1 p.2)) := by
  refine ⟨fun xs => ?_, fun xs => ?_, fun xs => ?_⟩
  · induction xs with
    | nil => rfl
    | cons x xs ih => simp_all [h.refl]
  · induction xs with
    | nil => intro ys; cases ys <;> simp
    | cons x xs ih =>
      intro ys
      cases ys with
      | nil => simp
      | cons y ys =>
        have := ih ys
        simp only [Bool.and_eq_true, beq_iff_eq, List.length_cons, Nat.add_right_cancel_iff, List.zip_cons_cons, List.all_cons] at this ⊢
        exact fun ⟨h1, h2, h3⟩ => ⟨h1.symm, h.symm _ _ h2, (this ⟨h1, h3⟩).2⟩
  · induction xs with
    | nil => intro ys zs; cases ys <;> cases zs <;> simp
    | cons x xs ih =>
      intro ys zs
      cases ys with
      | nil => simp
      | cons y ys => cases zs with
        | nil => simp
        | cons z zs =>
          have := ih ys zs
          simp only [Bool.and_eq_true, beq_iff_eq, List.length_cons, Nat.add_right_cancel_iff, List.zip_cons_cons, List.all_cons] at this ⊢
          exact fun ⟨h1, h2, h3⟩ ⟨g1, g2, g3⟩ => ⟨h1.trans g1, h.trans _ _ _ h2 g2, (this ⟨h1, h3⟩ ⟨g1, g3⟩).2⟩

theorem optEq_equiv : IsEquiv optEq := by
  refine ⟨fun a => ?_, fun a b h => ?_, fun a b c h g => ?_⟩
  · cases a <;> simp [optEq, veq_iff]
  · cases a <;> cases b <;> simp only [optEq, veq_iff, Bool.false_eq_true] at h ⊢
    exact h.symm
  · cases a <;> cases b <;> cases c <;> simp only [optEq, veq_iff, Bool.false_eq_true] at h g ⊢
    exact h.trans g

theorem item_equiv : IsEquiv Item.eq := by
  refine ⟨fun a => ?_, fun a b => ?_, fun a b c => ?_⟩ <;> simp only [Item.eq, Bool.and_eq_true, beq_iff_eq, optEq_equiv.refl, and_self]
  · exact fun ⟨⟨⟨h1, h2⟩, h3⟩, h4⟩ => ⟨⟨⟨optEq_equiv.symm _ _ h1, optEq_equiv.symm _ _ h2⟩, h3.symm⟩, h4.symm⟩
  · exact fun ⟨⟨⟨h1, h2⟩, h3⟩, h4⟩ ⟨⟨⟨g1, g2⟩, g3⟩, g4⟩ =>
      ⟨⟨⟨optEq_equiv.trans _ _ _ h1 g1, optEq_equiv.trans _ _ _ h2 g2⟩, h3.trans g3⟩, h4.trans g4⟩

theorem vset_equiv : IsEquiv VSet.eq := by
  refine ⟨fun a => ?_, fun a b h => ?_, fun a b c h g => ?_⟩
  · cases a with
    | empty => rfl
    | item a => exact item_equiv.refl a
    | union l => exact (lists_equiv item_equiv).refl l
  · cases a <;> cases b <;> simp only [VSet.eq, Bool.false_eq_true] at h ⊢
    · exact item_equiv.symm _ _ h
    · exact (lists_equiv item_equiv).symm _ _ h
  · cases a <;> cases b <;> cases c <;> simp only [VSet.eq, Bool.false_eq_true] at h g ⊢
    · exact item_equiv.trans _ _ _ h g
    · exact (lists_equiv item_equiv).trans _ _ _ h g

theorem string_equiv {κ : Type} [DecidableEq κ] : IsEquiv (fun a b : κ => decide (a = b)) :=
  ⟨by simp, fun a b => by simpa using Eq.symm, fun a b c => by simpa using Eq.trans⟩

/-! ### The functions of the library -/

section
variable (H : Hasher) (lim : Nat)
open Specifier

mutual
theorem toSet_stable : ∀ s : Specifier, Cached.Stable H.specifier Specifier.eq (toSetCached H lim s)
  | .one o => by unfold toSetCached; exact .wrap specifier_equiv (.pure _)
  | .never => by unfold toSetCached; exact .wrap specifier_equiv (.pure _)
  | .always => by unfold toSetCached; exact .wrap specifier_equiv (.pure _)
  | .all l => by
    unfold toSetCached
    refine .wrap specifier_equiv ?_
    match l with
    | [] => exact .pure _
    | s :: rest => exact (toSet_stable s).andThen fun x => reduceAll_stable rest x
  | .any l => by
    unfold toSetCached
    refine .wrap specifier_equiv ?_
    match l with
    | [] => exact .pure _
    | s :: rest => exact (toSet_stable s).andThen fun x => reduceAny_stable rest x
theorem reduceAll_stable : ∀ (l : List Specifier) (acc : VSet), Cached.Stable H.specifier Specifier.eq (reduceAllCached H lim acc l)
  | [], acc => by unfold reduceAllCached; exact .pure _
  | s :: rest, acc => by
    unfold reduceAllCached
    exact (toSet_stable s).andThen fun x => (Cached.Stable.pure _).andThen fun y => reduceAll_stable rest y
theorem reduceAny_stable : ∀ (l : List Specifier) (acc : VSet), Cached.Stable H.specifier Specifier.eq (reduceAnyCached H lim acc l)
  | [], acc => by unfold reduceAnyCached; exact .pure _
  | s :: rest, acc => by
    unfold reduceAnyCached
    exact (toSet_stable s).andThen fun x => (Cached.Stable.pure _).andThen fun y => reduceAny_stable rest y
end

theorem toSet_function : CachedFunction H.specifier Specifier.eq (toSetCached H lim) where
  equiv := specifier_equiv
  wrapped s := by cases s <;> (unfold toSetCached; exact ⟨_, rfl⟩)
  stable := toSet_stable H lim

theorem fromSet_function : CachedFunction H.vset VSet.eq (fromSetCached H lim) where
  equiv := vset_equiv
  wrapped s := by cases s <;> (unfold fromSetCached; exact ⟨_, rfl⟩)
  stable s := by
    have hitem : ∀ i, Cached.Stable H.vset VSet.eq (fromItemCached H i) := fun i => .wrap vset_equiv (.pure _)
    have hitems : ∀ l, Cached.Stable H.vset VSet.eq (fromItemsCached H l) := by
      intro l
      induction l with
      | nil => exact .pure _
      | cons i l ih => exact (hitem i).andThen fun s => ih.andThen fun l => .pure _
    cases s with
    | empty => exact .wrap vset_equiv (.pure _)
    | item i => exact hitem i
    | union l =>
      refine .wrap vset_equiv ((Cached.Stable.pure _).andThen fun o => ?_)
      cases o with
      | some s => exact .pure _
      | none => exact (hitems l).andThen fun l => .pure _

theorem parse_function {κ β : Type} [DecidableEq κ] (hash : κ → Int) (f : κ → Except PyErr β) :
    CachedFunction hash (fun a b => decide (a = b)) (fun k => Cached.wrap hash (fun a b => decide (a = b)) k (.pure (f k))) where
  equiv := string_equiv
  wrapped _ := ⟨_, rfl⟩
  stable _ := .wrap string_equiv (.pure _)
end

section
variable (hash : TSpecifier → Int) (S : ItemSort) (lim : Nat)
open TSpecifier

mutual
theorem toSetT_stable : ∀ s : TSpecifier, Cached.Stable hash TSpecifier.eq (toSetCached hash S lim s)
  | .one o v => by unfold toSetCached; exact .wrap tspecifier_equiv (.pure _)
  | .never => by unfold toSetCached; exact .wrap tspecifier_equiv (.pure _)
  | .always => by unfold toSetCached; exact .wrap tspecifier_equiv (.pure _)
  | .all l => by
    unfold toSetCached
    refine .wrap tspecifier_equiv ?_
    match l with
    | [] => exact .pure _
    | s :: rest => exact (toSetT_stable s).andThen fun x => reduceAllT_stable rest x
  | .any l => by
    unfold toSetCached
    refine .wrap tspecifier_equiv ?_
    match l with
    | [] => exact .pure _
    | s :: rest => exact (toSetT_stable s).andThen fun x => reduceAnyT_stable rest x
theorem reduceAllT_stable : ∀ (l : List TSpecifier) (acc : TSet), Cached.Stable hash TSpecifier.eq (reduceAllCached hash S lim acc l)
  | [], acc => by unfold reduceAllCached; exact .pure _
  | s :: rest, acc => by
    unfold reduceAllCached
    exact (toSetT_stable s).andThen fun x => (Cached.Stable.pure _).andThen fun y => reduceAllT_stable rest y
theorem reduceAnyT_stable : ∀ (l : List TSpecifier) (acc : TSet), Cached.Stable hash TSpecifier.eq (reduceAnyCached hash S lim acc l)
  | [], acc => by unfold reduceAnyCached; exact .pure _
  | s :: rest, acc => by
    unfold reduceAnyCached
    exact (toSetT_stable s).andThen fun x => (Cached.Stable.pure _).andThen fun y => reduceAnyT_stable rest y
end

theorem toSetT_function : CachedFunction hash TSpecifier.eq (toSetCached hash S lim) where
  equiv := tspecifier_equiv
  wrapped s := by cases s <;> (unfold toSetCached; exact ⟨_, rfl⟩)
  stable := toSetT_stable hash S lim
end

/-! ### `parse_version_set`: a cache in front of a cache -/

section
variable {α β κ : Type} [DecidableEq κ] {hash : α → Int} {eq : α → α → Bool} {call : α → Cached α β β}

/-- One call of the function with the cache in front. -/
def frontCall (hashK : κ → Int) (p : κ → Except PyErr α) (call : α → Cached α β β) (k : κ) (c : Cache κ β × Cache α β) :
    Except PyErr β × Cache κ β × Cache α β :=
  match c.1.find? (fun entry => decide (hashK entry.1 = hashK k) && decide (entry.1 = k)) with
  | some entry => (.ok entry.2, c)
  | none =>
    match p k with
    | .error e => (.error e, c)
    | .ok a =>
      match call a c.2 with
      | (.error e, c') => (.error e, (c.1, c'))
      | (.ok x, c') => (.ok x, ((k, x) :: c.1, c'))

/-- The cache in front cannot be noticed. -/
theorem frontCall_spec (F : CachedFunction hash eq call) (hashK : κ → Int) (p : κ → Except PyErr α) (k : κ) (c : Cache κ β × Cache α β)
    (hc : Backed hash eq p c.1 c.2) :
    (frontCall hashK p call k c).1 = (readThen p call k c.2).1 ∧ (frontCall hashK p call k c).2.2 = (readThen p call k c.2).2 ∧
      Backed hash eq p (frontCall hashK p call k c).2.1 (frontCall hashK p call k c).2.2 := by
  unfold frontCall readThen Cached.andThen Cached.pure
  cases hf : c.1.find? (fun entry => decide (hashK entry.1 = hashK k) && decide (entry.1 = k)) with
  | some e =>
    have h1 := List.find?_some hf
    simp only [Bool.and_eq_true, decide_eq_true_eq] at h1
    obtain ⟨a, ha, hx⟩ := hc e (List.mem_of_find?_eq_some hf)
    rw [h1.2] at ha
    simp only [ha, F.hit hx]
    exact ⟨trivial, trivial, hc⟩
  | none =>
    cases hp : p k with
    | error e => exact ⟨rfl, rfl, hc⟩
    | ok a =>
      have h1 := hc.stable (F.stable a)
      have h2 : ∀ x, (call a c.2).1 = .ok x → _ := fun x => F.returns (a := a) (c := c.2) (x := x)
      simp only
      rcases hcall : call a c.2 with ⟨r, c'⟩
      rw [hcall] at h1 h2
      cases r with
      | error e => exact ⟨rfl, rfl, h1⟩
      | ok x =>
        refine ⟨rfl, rfl, fun e he => ?_⟩
        rcases List.mem_cons.1 he with rfl | he
        · exact ⟨a, hp, h2 x rfl⟩
        · exact h1 e he
end

end Verif
