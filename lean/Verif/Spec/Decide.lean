import Verif.Spec.Specifiers
import Verif.Spec.Specification
import Verif.Spec.Pep440Order
/-!
# Deciding the notions of the specification

Instances with which the examples beside the theorems check their hypotheses by computation. No theorem depends on them.
-/

namespace Verif
open scoped Verif

instance decideSome {α : Type} (o : Option α) (P : α → Prop) [DecidablePred P] : Decidable (∀ t, o = some t → P t) :=
  match o with
  | none => isTrue (by simp)
  | some a => decidable_of_iff (P a) (by simp)

/-! ## Versions -/

instance (r : Release) : Decidable r.NonNeg := inferInstanceAs (Decidable (∀ x ∈ r.parts, 0 ≤ x))
instance (r : Release) : Decidable r.Valid := inferInstanceAs (Decidable (r.parts ≠ []))
instance (v : Version) : Decidable v.Valid :=
  decidable_of_iff (v.release.parts ≠ [] ∧ (∀ t, v.pre = some t → t.Valid .pre) ∧ (∀ t, v.post = some t → t.Valid .post) ∧
    (∀ t, v.dev = some t → t.Valid .dev) ∧ ∀ l, v.local_ = some l → l.parts ≠ [])
    ⟨fun h => ⟨h.1, h.2.1, h.2.2.1, h.2.2.2.1, h.2.2.2.2⟩, fun h => ⟨h.1, h.2, h.3, h.4, h.5⟩⟩
instance (p : LocalPart) : Decidable p.Wf := match p with
  | .int _ => isTrue trivial
  | .str s => inferInstanceAs (Decidable ((∀ c ∈ s, '0'.toNat ≤ c.toNat) ∧ ∃ c ∈ s, '0'.toNat < c.toNat))
instance (v : Version) : Decidable v.Wf :=
  decidable_of_iff (v.Valid ∧ ∀ l, v.local_ = some l → ∀ p ∈ l.parts, p.Wf) ⟨fun h => ⟨h.1, h.2⟩, fun h => ⟨h.1, h.2⟩⟩
instance (v : Version) : Decidable v.IsDevOfPost := inferInstanceAs (Decidable (_ ∧ _ ∧ _))
instance (v : Version) : Decidable v.IsFinal := inferInstanceAs (Decidable (_ ∧ _ ∧ _ ∧ _))
instance (v : Version) : Decidable v.LeadsToFinal := inferInstanceAs (Decidable (_ ∨ _))
instance (n : Nat) (a b : Version) : Decidable (a.SamePrefix n b) :=
  inferInstanceAs (Decidable (a.epoch = b.epoch ∧ ∀ j < n, a.release.part j = b.release.part j))

/-- Properties of all positions of two releases which hold beyond both of them need to be checked only within them. -/
theorem part_beyond (r : Release) (j : Nat) (h : r.parts.length ≤ j) : r.part j = 0 := by
  unfold Release.part
  rw [List.getD_eq_getElem?_getD, List.getElem?_eq_none h]
  rfl

instance samePartsDecidable (a b : Release) : Decidable (∀ j, a.part j = b.part j) :=
  decidable_of_iff (∀ j < max a.parts.length b.parts.length, a.part j = b.part j) ⟨fun h j => by
    by_cases hj : j < max a.parts.length b.parts.length
    · exact h j hj
    · rw [part_beyond a j (by omega), part_beyond b j (by omega)], fun h j _ => h j⟩
instance (a b : Release) : Decidable (a.Below b) :=
  decidable_of_iff (∃ i < max a.parts.length b.parts.length, (∀ j < i, a.part j = b.part j) ∧ a.part i < b.part i)
    ⟨fun ⟨i, _, h⟩ => ⟨i, h⟩, fun ⟨i, h⟩ => ⟨i, by
      by_contra hi
      have := h.2
      rw [part_beyond a i (by omega), part_beyond b i (by omega)] at this
      omega, h⟩⟩
instance (a b : Rank) : Decidable (a.Below b) := inferInstanceAs (Decidable (_ ∨ _))
instance (a b : LocalPart) : Decidable (a.Before b) := match a, b with
  | .int _, .int _ => inferInstanceAs (Decidable (_ < _))
  | .str _, .int _ => isTrue trivial
  | .int _, .str _ => isFalse id
  | .str _, .str _ => inferInstanceAs (Decidable (List.map _ _ < List.map _ _))
instance (a b : Option Local) : Decidable (localBefore a b) := match a, b with
  | none, some _ => isTrue trivial
  | some _, some _ => inferInstanceAs (Decidable (List.Lex _ _ _))
  | none, none => isFalse id
  | some _, none => isFalse id
instance (a b : Version) : Decidable (a.Before b) := inferInstanceAs (Decidable (_ ∨ _ ∧ (_ ∨ _ ∧ (_ ∨ _ ∧ (_ ∨ _ ∧ (_ ∨ _ ∧ _))))))
instance (a b : Version) : Decidable (Pep440.Before a b) :=
  inferInstanceAs (Decidable (_ ∨ _ ∧ (_ ∨ _ ∧ (_ ∨ _ ∧ (_ ∨ _ ∧ (_ ∨ _ ∧ _))))))
instance (a b : Version) : Decidable (a.SameNumbers b) :=
  inferInstanceAs (Decidable (a.epoch = b.epoch ∧ ∀ j, a.release.part j = b.release.part j))
instance (i : Nat) (a v : Version) : Decidable (a.NumbersBumped i v) :=
  decidable_of_iff (v.epoch = a.epoch ∧ ∀ j < max (i + 1) v.release.parts.length,
      v.release.part j = if j < i then a.release.part j else if j = i then a.release.part i + 1 else 0)
    ⟨fun h => ⟨h.1, fun j => by
      by_cases hj : j < max (i + 1) v.release.parts.length
      · exact h.2 j hj
      · rw [part_beyond _ j (by omega), if_neg (by omega), if_neg (by omega)]⟩, fun h => ⟨h.1, fun j _ => h.2 j⟩⟩
instance (r : Release) (i : Nat) : Decidable (CaretIndex r i) :=
  inferInstanceAs (Decidable (i < 3 ∧ (∀ j < i, r.part j = 0) ∧ (r.part i ≠ 0 ∨ i + 1 = min 3 r.precision)))
instance (o : Operator) : Decidable o.Valid :=
  decidable_of_iff (o.version.Valid ∧ o.version.release.NonNeg ∧ (o.type = .tildeEqual → 2 ≤ o.version.release.precision))
    ⟨fun h => ⟨h.1, h.2.1, h.2.2⟩, fun h => ⟨h.1, h.2, h.3⟩⟩
instance (o : Operator) : Decidable o.Broken := inferInstanceAs (Decidable (_ ∧ _))

/-! ## Sets -/

instance (m b v) : Decidable (AboveMin m b v) := decideSome _ _
instance (m b v) : Decidable (BelowMax m b v) := decideSome _ _
instance (i : Item) (v) : Decidable (i.Mem v) := match i with
  | .range _ => inferInstanceAs (Decidable (_ ∧ _))
  | .point p => inferInstanceAs (Decidable (p ==ₚ v))
instance (s : VSet) (v) : Decidable (s.Mem v) := match s with
  | .empty => isFalse id
  | .item i => inferInstanceAs (Decidable (i.Mem v))
  | .union l => inferInstanceAs (Decidable (∃ i ∈ l, i.Mem v))
instance (i : Item) : Decidable i.Wf := inferInstanceAs (Decidable (_ ∧ _))
instance (s : VSet) : Decidable s.Wf := match s with
  | .empty => isTrue trivial
  | .item i => inferInstanceAs (Decidable i.Wf)
  | .union l => inferInstanceAs (Decidable (∀ i ∈ l, i.Wf))
instance (i : Item) : Decidable i.Normal := match i with
  | .range r => decidable_of_iff ((r.min = none → r.includeMin = false) ∧ (r.max = none → r.includeMax = false) ∧
      ∀ a, r.min = some a → ∀ b, r.max = some b → a <ₚ b)
      ⟨fun h => ⟨h.1, h.2.1, fun a b x y => h.2.2 a x b y⟩, fun h => ⟨h.1, h.2.1, fun a x b y => h.2.2 a b x y⟩⟩
  | .point _ => isTrue trivial
instance (a b : Item) : Decidable (a.Before b) :=
  match ha : a.max, hb : b.min with
  | some x, some y => decidable_of_iff (x <ₚ y ∨ (x ==ₚ y ∧ a.includeMax = false ∧ b.includeMin = false))
      (by unfold Item.Before; rw [ha, hb]; simp)
  | none, _ => isFalse (by unfold Item.Before; rw [ha]; simp)
  | some _, none => isFalse (by unfold Item.Before; rw [hb]; simp)
instance (s : VSet) : Decidable s.Normal := match s with
  | .empty => isTrue trivial
  | .item i => inferInstanceAs (Decidable i.Normal)
  | .union l => inferInstanceAs (Decidable (2 ≤ l.length ∧ (∀ i ∈ l, i.Normal) ∧ l.Pairwise Item.Before))
instance (s : VSet) (i : Item) : Decidable (s.Has i) := match s with
  | .empty => isFalse id
  | .item j => inferInstanceAs (Decidable (i = j))
  | .union l => inferInstanceAs (Decidable (i ∈ l))

/-! ## Strings -/

instance (s : PyStr) : Decidable (AlphaNum s) := inferInstanceAs (Decidable (_ ∧ _))
instance (s : PyStr) : Decidable (OptSep s) := match s with
  | [] => isTrue (.inl rfl)
  | [c] => decidable_of_iff (IsSep c) ⟨fun h => .inr ⟨c, rfl, h⟩, fun h => by rcases h with h | ⟨d, h, h'⟩ <;> simp_all⟩
  | a :: b :: l => isFalse (by rintro (h | ⟨d, h, _⟩) <;> simp at h)
instance (w : List PyStr) (t : TagSpelling) : Decidable (t.WF w) := decidable_of_iff
  (OptSep t.sep ∧ t.phase.map foldCase ∈ w ∧ ∀ x, t.value = some x → OptSep x.1 ∧ Digits x.2)
  ⟨fun h => ⟨h.1, h.2.1, fun s d e => h.2.2 _ e⟩, fun h => ⟨h.1, h.2, fun x e => h.3 x.1 x.2 e⟩⟩
instance (w : List PyStr) (t : PostSpelling) : Decidable (t.WF w) := match t with
  | .implicit d => inferInstanceAs (Decidable (Digits d))
  | .tag t => inferInstanceAs (Decidable (t.WF w))
instance (p : LocalPart) : Decidable p.Canonical := match p with
  | .int n => inferInstanceAs (Decidable (0 ≤ n))
  | .str s => inferInstanceAs (Decidable (AlphaNum s ∧ ¬ Digits s))
instance (v : Version) : Decidable v.Canonical := decidable_of_iff
  (v.Valid ∧ 0 ≤ v.epoch.value ∧ v.release.NonNeg ∧ (∀ t, v.pre = some t → 0 ≤ t.value) ∧
    (∀ t, v.post = some t → 0 ≤ t.value) ∧ (∀ t, v.dev = some t → 0 ≤ t.value) ∧
    ∀ l, v.local_ = some l → ∀ p ∈ l.parts, p.Canonical)
  ⟨fun ⟨a, b, c, d, e, f, g⟩ => ⟨a, b, c, d, e, f, g⟩, fun ⟨a, b, c, d, e, f, g⟩ => ⟨a, b, c, d, e, f, g⟩⟩

namespace Spelling

instance (p : Spelling) : Decidable p.WF := decidable_of_iff
  ((p.v = [] ∨ p.v = ['v'] ∨ p.v = ['V']) ∧ (∀ d, p.epoch = some d → Digits d) ∧ Digits p.major ∧
    (∀ d ∈ p.release, Digits d) ∧ (∀ t, p.pre = some t → t.WF preWords) ∧ (∀ t, p.post = some t → t.WF postWords) ∧
    (∀ t, p.dev = some t → t.WF devWords) ∧ ∀ l, p.local_ = some l → AlphaNum l.1 ∧ ∀ x ∈ l.2, IsSep x.1 ∧ AlphaNum x.2)
  ⟨fun ⟨a, b, c, d, e, f, g, h⟩ => ⟨a, b, c, d, e, f, g, h⟩, fun ⟨a, b, c, d, e, f, g, h⟩ => ⟨a, b, c, d, e, f, g, h⟩⟩
instance (s t) : Decidable (TagOf s t) := inferInstanceAs (Decidable (_ ∧ _))
instance (s t) : Decidable (PostOf s t) := match s with
  | .implicit d => inferInstanceAs (Decidable (t = _))
  | .tag s => inferInstanceAs (Decidable (TagOf s t))
instance {α β : Type} (r : α → β → Prop) [∀ a b, Decidable (r a b)] (a : Option α) (b : Option β) : Decidable (OptOf r a b) :=
  match a, b with
  | none, none => isTrue trivial
  | some a, some b => inferInstanceAs (Decidable (r a b))
  | none, some _ => isFalse id
  | some _, none => isFalse id
instance (s x) : Decidable (PartOf s x) := inferInstanceAs (Decidable (_ ∨ _))
instance partsDecidable : (l : List PyStr) → (m : List LocalPart) → Decidable (List.Forall₂ PartOf l m)
  | [], [] => isTrue .nil
  | [], _ :: _ => isFalse (by simp)
  | _ :: _, [] => isFalse (by simp)
  | a :: l, b :: m =>
    have := partsDecidable l m
    decidable_of_iff (PartOf a b ∧ List.Forall₂ PartOf l m) (by simp)
instance (l x) : Decidable (LocalOf l x) := partsDecidable _ _
instance (p : Spelling) (v : Version) : Decidable (p.Of v) := decidable_of_iff
  (v.epoch.value = (p.epoch.map number).getD 0 ∧ v.release.parts = (p.major :: p.release).map (fun d => (number d : Int)) ∧
    OptOf TagOf p.pre v.pre ∧ OptOf PostOf p.post v.post ∧ OptOf TagOf p.dev v.dev ∧ OptOf LocalOf p.local_ v.local_)
  ⟨fun ⟨a, b, c, d, e, f⟩ => ⟨a, b, c, d, e, f⟩, fun ⟨a, b, c, d, e, f⟩ => ⟨a, b, c, d, e, f⟩⟩
instance (q : PostSpelling) : Decidable (∃ d, q = .implicit d) := match q with
  | .implicit d => isTrue ⟨d, rfl⟩
  | .tag _ => isFalse (by simp)
instance (p : Spelling) : Decidable p.Greedy :=
  decidable_of_iff (∀ t, p.pre = some t → ∀ q, p.post = some q → (∃ d, q = .implicit d) → t.value.isSome = true)
    ⟨fun h t d ht hd e => by simpa [e] using h t ht _ hd ⟨d, rfl⟩, fun h t ht q hq ⟨d, hd⟩ => by
      subst hd; cases e : t.value with
      | none => exact absurd e (h t d ht hq)
      | some x => rfl⟩
instance (t : TagSpelling) : Decidable (TagZero t) := match h : t.value with
  | none => isFalse (by simp [TagZero, h])
  | some x => decidable_of_iff (x.2 = ['0']) (by
      unfold TagZero; rw [h]
      exact ⟨fun e => ⟨x.1, by rw [← e]⟩, fun ⟨s, e⟩ => by cases e; rfl⟩)
instance (p : Spelling) : Decidable p.EndsInZero := by
  unfold EndsInZero
  refine @instDecidableAnd _ _ (by infer_instance) ?_
  split <;> infer_instance
end Spelling

end Verif
