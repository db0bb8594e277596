import Verif.Model.Comparisons
import Verif.Proofs.Caches
import Verif.Props.Sets
/-!
# Properties of comparisons between objects of any two classes (C89)
-/

namespace Verif
open scoped Verif

/-! ### specification -/

/-- The classes, with ranges and points as one, since a point is a range. -/
inductive ObjKind
  | epoch | release | preTag | postTag | devTag | local_ | version
  | opType | operator | never | always | one | any | all
  | empty | range | union
  | infinity | negativeInfinity
  deriving DecidableEq, Repr

namespace Obj

def kind : Obj → ObjKind
  | epoch _ => .epoch
  | release _ => .release
  | tag .pre _ => .preTag
  | tag .post _ => .postTag
  | tag .dev _ => .devTag
  | local_ _ => .local_
  | version _ => .version
  | opType _ => .opType
  | operator _ => .operator
  | specifier .never => .never
  | specifier .always => .always
  | specifier (.one _) => .one
  | specifier (.any _) => .any
  | specifier (.all _) => .all
  | empty => .empty
  | item _ => .range
  | union _ => .union
  | infinity => .infinity
  | negativeInfinity => .negativeInfinity

/-- The segments, versions and ranges are ordered. -/
def Ordered (x : Obj) : Prop :=
  x.kind ∈ [.epoch, .release, .preTag, .postTag, .devTag, .local_, .version, .range]

def IsItem (x : Obj) : Prop := x.kind = .range
def IsInfinite (x : Obj) : Prop := x.kind = .infinity ∨ x.kind = .negativeInfinity

/-- A version set as an object. -/
def ofSet : VSet → Obj
  | .empty => empty
  | .item i => item i
  | .union l => union l

/-- A value or an infinity as an object. -/
def ofExt {α : Type} (f : α → Obj) : Ext α → Obj
  | .negInf => negativeInfinity
  | .fin a => f a
  | .posInf => infinity

end Obj

/-! ### proofs -/

theorem item_eq_key (a b : Item) : a.eq b = true ↔ a.sortKey = b.sortKey := by
  have h1 : optEq a.min b.min = true ↔ extKey Version.key a.comparableMin = extKey Version.key b.comparableMin := by
    unfold Item.comparableMin
    cases a.min <;> cases b.min <;> simp [optEq, extKey, veq_iff]
  have h2 : optEq a.max b.max = true ↔ extKey Version.key a.comparableMax = extKey Version.key b.comparableMax := by
    unfold Item.comparableMax
    cases a.max <;> cases b.max <;> simp [optEq, extKey, veq_iff]
  simp only [Item.eq, Item.sortKey, Bool.and_eq_true, h1, h2, beq_iff_eq, EmbeddingLike.apply_eq_iff_eq, Prod.mk.injEq, Bool.not_eq_eq_eq_not, Bool.not_not]
  tauto


theorem item_ord_key (a b : Item) :
    (a.lt b = true ↔ a.sortKey < b.sortKey) ∧ (a.le b = true ↔ a.sortKey ≤ b.sortKey) ∧
      (a.gt b = true ↔ b.sortKey < a.sortKey) ∧ (a.ge b = true ↔ b.sortKey ≤ a.sortKey) := by
  have h1 : ∀ a b : Item, a.le b = true ↔ a.sortKey ≤ b.sortKey := by
    intro a b
    obtain ⟨-, h, -, -, -, hg, -⟩ := C30_total_order a b b
    rw [← not_lt, ← item_lt_key b a, ← hg]
    simp [Item.le, Item.gt]
  obtain ⟨-, -, -, -, -, hg, hge⟩ := C30_total_order a b b
  exact ⟨item_lt_key a b, h1 a b, by rw [hg, item_lt_key], by rw [hge, h1]⟩

namespace Obj

/-- What `==` amounts to. -/
def same : Obj → Obj → Bool
  | epoch a, epoch b => PyCmp.eq a b
  | release a, release b => PyCmp.eq a b
  | tag c a, tag d b => decide (c = d) && PyCmp.eq a b
  | local_ a, local_ b => PyCmp.eq a b
  | version a, version b => PyCmp.eq a b
  | opType a, opType b => a.eq b
  | operator a, operator b => a.eq b
  | specifier a, specifier b => a.eq b
  | empty, empty => true
  | union a, union b => VSet.eq (.union a) (.union b)
  | item a, item b => a.eq b
  | infinity, infinity => true
  | negativeInfinity, negativeInfinity => true
  | _, _ => false

theorem spec_eq_class {a b : Specifier} (h : ¬ specClass a = specClass b) : a.eq b = false := by
  cases a <;> cases b <;> simp [specClass, Specifier.eq] at h ⊢

theorem item_eq_comm (a b : Item) : a.eq b = b.eq a := by
  rw [Bool.eq_iff_iff, item_eq_key, item_eq_key, eq_comm]

theorem opType_eq_comm (a b : OpType) : a.eq b = b.eq a := by cases a <;> cases b <;> decide

theorem opType_method (a b : OpType) :
    ((eqMethod (opType a) (opType b)).or (eqMethod (opType b) (opType a))).getD (identical (opType a) (opType b)) = a.eq b := by
  cases a <;> cases b <;> decide

theorem eq_same (a b : Obj) : a.eq b = a.same b := by
  cases a with
  | opType a =>
    cases b with
    | opType b => exact opType_method a b
    | _ => simp [eq, subclassFirst, eqMethod, same, isInfinity, isNegativeInfinity, identical]
  | tag c a =>
    cases b with
    | tag d b =>
      by_cases h : c = d
      · simp [eq, subclassFirst, eqMethod, same, h]
      · simp [eq, subclassFirst, eqMethod, same, h, Ne.symm h, identical]
    | _ => simp [eq, subclassFirst, eqMethod, same, isInfinity, isNegativeInfinity, identical]
  | specifier a =>
    cases b with
    | specifier b =>
      by_cases h : specClass a = specClass b
      · simp [eq, subclassFirst, eqMethod, same, h]
      · simp [eq, subclassFirst, eqMethod, same, h, Ne.symm h, identical, spec_eq_class h]
    | _ => simp [eq, subclassFirst, eqMethod, same, isInfinity, isNegativeInfinity, identical]
  | item a =>
    cases b with
    | item b => cases a <;> cases b <;> simp [eq, subclassFirst, eqMethod, same, item_eq_comm]
    | _ => cases a <;> simp [eq, subclassFirst, eqMethod, same, isInfinity, isNegativeInfinity, identical]
  | operator a =>
    cases b with
    | specifier b => cases b <;> simp [eq, subclassFirst, eqMethod, same, identical]
    | _ => simp [eq, subclassFirst, eqMethod, same, isInfinity, isNegativeInfinity, identical]
  | _ => cases b <;> simp [eq, subclassFirst, eqMethod, same, isInfinity, isNegativeInfinity, identical, VSet.eq]

theorem neMethod_eq (a b : Obj) : a.neMethod b = (a.eqMethod b).map (!·) := by
  cases a <;> simp [neMethod, eqMethod]

theorem ne_eq (a b : Obj) : a.ne b = !a.eq b := by
  simp only [ne, eq, neMethod_eq]
  cases subclassFirst a b <;> cases a.eqMethod b <;> cases b.eqMethod a <;> simp

theorem union_eq_key (l m : List Item) : VSet.eq (.union l) (.union m) = true ↔ l.map Item.sortKey = m.map Item.sortKey := by
  simp only [VSet.eq, Bool.and_eq_true, beq_iff_eq, List.all_eq_true]
  induction l generalizing m with
  | nil => cases m <;> simp
  | cons i l ih =>
    cases m with
    | nil => simp
    | cons j m =>
      simp only [List.length_cons, Nat.add_right_cancel_iff, List.zip_cons_cons, List.mem_cons, forall_eq_or_imp, item_eq_key,
        List.map_cons, List.cons.injEq, ← ih]
      tauto

theorem same_refl (a : Obj) : a.same a = true := by
  cases a with
  | epoch a => exact (CmpKey.epoch.eq a a).2 rfl
  | release a => exact (CmpKey.release.eq a a).2 rfl
  | tag c a => simp only [same, decide_true, Bool.true_and]; exact (CmpKey.tag.eq a a).2 rfl
  | local_ a => exact (CmpKey.local.eq a a).2 rfl
  | version a => exact (CmpKey.version.eq a a).2 rfl
  | opType a => cases a <;> rfl
  | operator a => exact Specifier.op_eq_refl a
  | specifier a => exact Specifier.eq_refl a
  | item i => exact (item_eq_key i i).2 rfl
  | union l => exact (union_eq_key l l).2 rfl
  | _ => rfl

theorem same_symm {a b : Obj} (h : a.same b = true) : b.same a = true := by
  cases a <;> cases b <;> simp only [same, Bool.false_eq_true, Bool.and_eq_true, decide_eq_true_eq] at h ⊢
  · exact (CmpKey.epoch.eq _ _).2 ((CmpKey.epoch.eq _ _).1 h).symm
  · exact (CmpKey.release.eq _ _).2 ((CmpKey.release.eq _ _).1 h).symm
  · exact ⟨h.1.symm, (CmpKey.tag.eq _ _).2 ((CmpKey.tag.eq _ _).1 h.2).symm⟩
  · exact (CmpKey.local.eq _ _).2 ((CmpKey.local.eq _ _).1 h).symm
  · exact (CmpKey.version.eq _ _).2 ((CmpKey.version.eq _ _).1 h).symm
  · rw [opType_eq_comm]; exact h
  · exact Specifier.op_eq_symm h
  · exact Specifier.eq_symm _ _ h
  · rw [item_eq_comm]; exact h
  · exact (union_eq_key _ _).2 ((union_eq_key _ _).1 h).symm

theorem same_trans {a b c : Obj} (h : a.same b = true) (g : b.same c = true) : a.same c = true := by
  cases a <;> cases b <;> simp only [same, Bool.false_eq_true, Bool.and_eq_true, decide_eq_true_eq] at h <;>
    cases c <;> simp only [same, Bool.false_eq_true, Bool.and_eq_true, decide_eq_true_eq] at g ⊢
  · exact (CmpKey.epoch.eq _ _).2 (((CmpKey.epoch.eq _ _).1 h).trans ((CmpKey.epoch.eq _ _).1 g))
  · exact (CmpKey.release.eq _ _).2 (((CmpKey.release.eq _ _).1 h).trans ((CmpKey.release.eq _ _).1 g))
  · exact ⟨h.1.trans g.1, (CmpKey.tag.eq _ _).2 (((CmpKey.tag.eq _ _).1 h.2).trans ((CmpKey.tag.eq _ _).1 g.2))⟩
  · exact (CmpKey.local.eq _ _).2 (((CmpKey.local.eq _ _).1 h).trans ((CmpKey.local.eq _ _).1 g))
  · exact (CmpKey.version.eq _ _).2 (((CmpKey.version.eq _ _).1 h).trans ((CmpKey.version.eq _ _).1 g))
  · exact (Specifier.opType_eq_iff _ _).2 (((Specifier.opType_eq_iff _ _).1 h).trans ((Specifier.opType_eq_iff _ _).1 g))
  · exact Specifier.op_eq_trans h g
  · exact Specifier.eq_trans _ _ _ h g
  · exact (item_eq_key _ _).2 (((item_eq_key _ _).1 h).trans ((item_eq_key _ _).1 g))
  · exact (union_eq_key _ _).2 (((union_eq_key _ _).1 h).trans ((union_eq_key _ _).1 g))

theorem same_kind {a b : Obj} (h : a.same b = true) : a.kind = b.kind := by
  cases a <;> cases b <;> simp only [same, Bool.false_eq_true, Bool.and_eq_true, decide_eq_true_eq] at h <;>
    first
    | rfl
    | (obtain ⟨rfl, -⟩ := h; rename_i c _ _; cases c <;> rfl)
    | (rename_i s t; cases s <;> cases t <;> simp [Specifier.eq] at h ⊢ <;> rfl)

theorem ord_item (op : CmpOp) (a b : Item) : ord op (item a) (item b) = .ok (Item.op op a b) := by
  have h : Item.op op.reflected b a = Item.op op a b := by
    obtain ⟨h1, h2, h3, h4⟩ := item_ord_key a b
    obtain ⟨g1, g2, g3, g4⟩ := item_ord_key b a
    rw [Bool.eq_iff_iff]
    cases op <;> simp only [CmpOp.reflected, Item.op, h1, h2, h3, h4, g1, g2, g3, g4]
  cases a <;> cases b <;> simp [ord, subclassFirst, ordMethod, h]

theorem ord_tag_ne (op : CmpOp) {c d : TagClass} (h : c ≠ d) (a b : Tag) : ord op (tag c a) (tag d b) = .error .typeError := by
  simp [ord, subclassFirst, ordMethod, h, Ne.symm h]

theorem ord_tag (op : CmpOp) (c : TagClass) (a b : Tag) : ord op (tag c a) (tag c b) = .ok (PyCmp.op op a b) := by
  simp [ord, subclassFirst, ordMethod]

theorem outcome (op : CmpOp) (a b : Obj) :
    ((∃ r, ord op a b = .ok r) ∧ ((a.kind = b.kind ∧ a.Ordered) ∨ a.IsInfinite ∨ (b.IsInfinite ∧ ¬ a.IsItem))) ∨
    (ord op a b = .error .attributeError ∧ ¬ a.IsInfinite ∧ ((a.IsItem ∧ ¬ b.IsItem) ∨ (¬ a.IsItem ∧ b.IsItem))) ∨
    (ord op a b = .error .typeError ∧ ¬ a.IsInfinite ∧ ¬ b.IsInfinite ∧ ¬ a.IsItem ∧ ¬ b.IsItem ∧ ¬ (a.kind = b.kind ∧ a.Ordered)) := by
  rcases a with _ | _ | ⟨_ | _ | _, _⟩ | _ | _ | _ | _ | (_ | _ | _ | _ | _) | _ | i | _ | _ | _ <;>
    rcases b with _ | _ | ⟨_ | _ | _, _⟩ | _ | _ | _ | _ | (_ | _ | _ | _ | _) | _ | j | _ | _ | _ <;>
    first
    | exact .inl ⟨⟨_, ord_item op i j⟩, .inl ⟨rfl, by simp [Ordered, kind]⟩⟩
    | simp [ord, subclassFirst, ordMethod, kind, Ordered, IsInfinite, IsItem]

/-- The four operators and `==` on one ordered class. -/
structure Laws {α : Type} (op : CmpOp → α → α → Bool) (eq : α → α → Bool) : Prop where
  le : ∀ a b, op .le a b = (op .lt a b || eq a b)
  gt : ∀ a b, op .gt a b = !(op .lt a b || eq a b)
  ge : ∀ a b, op .ge a b = !op .lt a b
  swap : ∀ o a b, op o.reflected b a = op o a b
  trans : ∀ a b c, op .lt a b = true → op .lt b c = true → op .lt a c = true

theorem laws_of_key {α K : Type} [LinearOrder K] {op : CmpOp → α → α → Bool} {eq : α → α → Bool} {key : α → K}
    (he : ∀ a b, eq a b = true ↔ key a = key b) (h1 : ∀ a b, op .lt a b = true ↔ key a < key b)
    (h2 : ∀ a b, op .le a b = true ↔ key a ≤ key b) (h3 : ∀ a b, op .gt a b = true ↔ key b < key a)
    (h4 : ∀ a b, op .ge a b = true ↔ key b ≤ key a) : Laws op eq where
  le a b := by rw [Bool.eq_iff_iff, Bool.or_eq_true, h1, h2, he]; exact le_iff_lt_or_eq
  gt a b := by
    rw [Bool.eq_iff_iff, Bool.not_eq_true', ← Bool.not_eq_true, Bool.or_eq_true, h1, h3, he, ← le_iff_lt_or_eq, not_le]
  ge a b := by rw [Bool.eq_iff_iff, Bool.not_eq_true', ← Bool.not_eq_true, h1, h4, not_lt]
  swap o a b := by rw [Bool.eq_iff_iff]; cases o <;> simp only [CmpOp.reflected, h1, h2, h3, h4]
  trans a b c := by rw [h1, h1, h1]; exact lt_trans

theorem laws_cmp {α K : Type} [PyCmp α] [LinearOrder K] {key : α → K} (h : CmpKey α key) :
    Laws (PyCmp.op (α := α)) PyCmp.eq :=
  laws_of_key h.eq h.lt h.le h.gt h.ge

theorem laws_item : Laws Item.op Item.eq :=
  laws_of_key item_eq_key (fun a b => (item_ord_key a b).1) (fun a b => (item_ord_key a b).2.1)
    (fun a b => (item_ord_key a b).2.2.1) (fun a b => (item_ord_key a b).2.2.2)

/-- The objects `f x` are one ordered class. -/
structure Family {α : Type} (f : α → Obj) (o : CmpOp → α → α → Bool) (e : α → α → Bool) : Prop where
  laws : Laws o e
  ord : ∀ op x y, ord op (f x) (f y) = .ok (o op x y)
  eq : ∀ x y, (f x).eq (f y) = e x y
  kinds : ∀ x y, (f x).kind = (f y).kind
  ordered : ∀ x, (f x).Ordered
  onto : ∀ (x : α) (c : Obj), c.kind = (f x).kind → ∃ y, c = f y

theorem family {a : Obj} (h : a.Ordered) :
    ∃ (α : Type) (f : α → Obj) (o : CmpOp → α → α → Bool) (e : α → α → Bool), Family f o e ∧ ∃ x, a = f x := by
  have onto_tag : ∀ (k : TagClass) (x : Tag) (c : Obj), c.kind = (tag k x).kind → ∃ y, c = tag k y := by
    intro k x c hc
    rcases c with _ | _ | ⟨_ | _ | _, _⟩ | _ | _ | _ | _ | (_ | _ | _ | _ | _) | _ | i | _ | _ | _ <;> cases k <;>
      simp [kind] at hc ⊢
  cases a with
  | epoch a =>
    refine ⟨_, epoch, PyCmp.op, PyCmp.eq, ⟨laws_cmp CmpKey.epoch, fun _ _ _ => rfl, fun _ _ => rfl, fun _ _ => rfl,
      fun _ => by simp [Ordered, kind], fun x c hc => ?_⟩, a, rfl⟩
    rcases c with _ | _ | ⟨_ | _ | _, _⟩ | _ | _ | _ | _ | (_ | _ | _ | _ | _) | _ | i | _ | _ | _ <;> simp [kind] at hc ⊢
  | release a =>
    refine ⟨_, release, PyCmp.op, PyCmp.eq, ⟨laws_cmp CmpKey.release, fun _ _ _ => rfl, fun _ _ => rfl, fun _ _ => rfl,
      fun _ => by simp [Ordered, kind], fun x c hc => ?_⟩, a, rfl⟩
    rcases c with _ | _ | ⟨_ | _ | _, _⟩ | _ | _ | _ | _ | (_ | _ | _ | _ | _) | _ | i | _ | _ | _ <;> simp [kind] at hc ⊢
  | tag k a =>
    exact ⟨_, tag k, PyCmp.op, PyCmp.eq, ⟨laws_cmp CmpKey.tag, fun op x y => ord_tag op k x y,
      fun x y => by simp [eq_same, same], fun _ _ => by cases k <;> rfl, fun _ => by cases k <;> simp [Ordered, kind],
      onto_tag k⟩, a, rfl⟩
  | local_ a =>
    refine ⟨_, local_, PyCmp.op, PyCmp.eq, ⟨laws_cmp CmpKey.local, fun _ _ _ => rfl, fun _ _ => rfl, fun _ _ => rfl,
      fun _ => by simp [Ordered, kind], fun x c hc => ?_⟩, a, rfl⟩
    rcases c with _ | _ | ⟨_ | _ | _, _⟩ | _ | _ | _ | _ | (_ | _ | _ | _ | _) | _ | i | _ | _ | _ <;> simp [kind] at hc ⊢
  | version a =>
    refine ⟨_, version, PyCmp.op, PyCmp.eq, ⟨laws_cmp CmpKey.version, fun _ _ _ => rfl, fun _ _ => rfl, fun _ _ => rfl,
      fun _ => by simp [Ordered, kind], fun x c hc => ?_⟩, a, rfl⟩
    rcases c with _ | _ | ⟨_ | _ | _, _⟩ | _ | _ | _ | _ | (_ | _ | _ | _ | _) | _ | i | _ | _ | _ <;> simp [kind] at hc ⊢
  | item a =>
    refine ⟨_, item, Item.op, Item.eq, ⟨laws_item, ord_item, fun x y => by rw [eq_same, same], fun _ _ => rfl,
      fun _ => by simp [Ordered, kind], fun x c hc => ?_⟩, a, rfl⟩
    rcases c with _ | _ | ⟨_ | _ | _, _⟩ | _ | _ | _ | _ | (_ | _ | _ | _ | _) | _ | i | _ | _ | _ <;> simp [kind] at hc ⊢
  | specifier s => cases s <;> simp [Ordered, kind] at h
  | _ => simp [Ordered, kind] at h

theorem ord_infinity (op : CmpOp) (x : Obj) : ord op infinity x =
    .ok (match op with | .lt => false | .le => x.isInfinity | .gt => !x.isInfinity | .ge => true) := by
  cases op <;> simp [ord, subclassFirst, ordMethod]

theorem ord_negativeInfinity (op : CmpOp) (x : Obj) : ord op negativeInfinity x =
    .ok (match op with | .lt => !x.isNegativeInfinity | .le => true | .gt => false | .ge => x.isNegativeInfinity) := by
  cases op <;> simp [ord, subclassFirst, ordMethod]

/-- An infinity on the right of an object that is neither a range nor an infinity. -/
theorem ord_right_infinity (op : CmpOp) {a : Obj} (h : ¬ a.IsItem) (hi : ¬ a.IsInfinite) :
    ord op a infinity = .ok (match op with | .lt | .le => true | .gt | .ge => false) ∧
    ord op a negativeInfinity = .ok (match op with | .lt | .le => false | .gt | .ge => true) := by
  cases a <;> simp [IsItem, IsInfinite, kind] at h hi <;> cases op <;>
    simp [ord, subclassFirst, ordMethod, CmpOp.reflected, isInfinity, isNegativeInfinity]

theorem infinite_cases {a : Obj} (h : a.IsInfinite) : a = infinity ∨ a = negativeInfinity := by
  rcases a with _ | _ | ⟨_ | _ | _, _⟩ | _ | _ | _ | _ | (_ | _ | _ | _ | _) | _ | i | _ | _ | _ <;> simp [kind, IsInfinite] at h ⊢

theorem finite_eq {a : Obj} (h : ¬ a.IsInfinite) : a.eq infinity = false ∧ a.eq negativeInfinity = false ∧
    a.isInfinity = false ∧ a.isNegativeInfinity = false := by
  rw [eq_same, eq_same]
  cases a <;> simp [IsInfinite, kind, same, isInfinity, isNegativeInfinity] at h ⊢

/-- Where the operators answer: within one ordered class, or with an infinity. -/
theorem answers {op : CmpOp} {a b : Obj} {r : Bool} (h : ord op a b = .ok r) :
    (∃ (α : Type) (f : α → Obj) (o : CmpOp → α → α → Bool) (e : α → α → Bool), Family f o e ∧ (∃ x, a = f x) ∧ ∃ y, b = f y) ∨
    a = infinity ∨ a = negativeInfinity ∨ (¬ a.IsItem ∧ ¬ a.IsInfinite ∧ (b = infinity ∨ b = negativeInfinity)) := by
  by_cases hi : a.IsInfinite
  · exact .inr ((infinite_cases hi).imp id .inl)
  rcases outcome op a b with ⟨-, ⟨hk, ho⟩ | h1 | h1⟩ | ⟨h1, -⟩ | ⟨h1, -⟩
  · obtain ⟨α, f, o, e, F, x, rfl⟩ := family ho
    exact .inl ⟨α, f, o, e, F, ⟨x, rfl⟩, F.onto x b hk.symm⟩
  · exact absurd h1 hi
  · exact .inr (.inr (.inr ⟨h1.2, hi, infinite_cases h1.1⟩))
  · rw [h] at h1; cases h1
  · rw [h] at h1; cases h1

theorem eq_infinity (x : Obj) : infinity.eq x = x.isInfinity ∧ negativeInfinity.eq x = x.isNegativeInfinity := by
  rw [eq_same, eq_same]
  cases x <;> simp [same, isInfinity, isNegativeInfinity]

end Obj

open Obj

/-- **C89** `==` is an equivalence on all the objects of the package, and `!=` is its negation. -/
theorem C89_equality (a b c : Obj) :
    a.eq a = true ∧ a.eq b = b.eq a ∧ (a.eq b = true → b.eq c = true → a.eq c = true) ∧ a.ne b = !a.eq b := by
  refine ⟨?_, ?_, ?_, ne_eq a b⟩
  · rw [eq_same]; exact same_refl a
  · rw [eq_same, eq_same, Bool.eq_iff_iff]; exact ⟨same_symm, same_symm⟩
  · rw [eq_same, eq_same, eq_same]; exact same_trans

/-- `Operator(EQUAL, 1.0) != SpecifierOne(EQUAL, 1.0)`, although the second class extends the first; `OperatorType.EQUAL ==
OperatorType.DOUBLE_EQUAL`; a point equals the closed range from its version to itself. -/
example : (operator ⟨.equal, exVersion [1, 0]⟩).ne (specifier (.one ⟨.equal, exVersion [1, 0]⟩)) = true ∧
    (opType .equal).eq (opType .doubleEqual) = true ∧
    (item (exPoint [1])).eq (item (exRange (some [1]) (some [1]) true true)) = true := by decide +kernel

/-- **C89** Objects of different classes are never equal, a point and a range excepted; within a class `==` is that of the class. -/
theorem C89_classes :
    (∀ a b : Obj, a.eq b = true → a.kind = b.kind) ∧ (∀ a b : Version, (version a).eq (version b) = PyCmp.eq a b) ∧
      (∀ c (a b : Tag), (tag c a).eq (tag c b) = PyCmp.eq a b) ∧ (∀ a b : Local, (local_ a).eq (local_ b) = PyCmp.eq a b) ∧
      (∀ a b : Release, (release a).eq (release b) = PyCmp.eq a b) ∧ (∀ a b : Epoch, (epoch a).eq (epoch b) = PyCmp.eq a b) ∧
      (∀ a b : OpType, (opType a).eq (opType b) = a.eq b) ∧ (∀ a b : Operator, (operator a).eq (operator b) = a.eq b) ∧
      (∀ a b : Specifier, (specifier a).eq (specifier b) = a.eq b) ∧ ∀ a b : VSet, (ofSet a).eq (ofSet b) = a.eq b := by
  refine ⟨fun a b h => same_kind (by rwa [eq_same] at h), fun a b => rfl, fun c a b => by simp [eq_same, same], fun a b => rfl,
    fun a b => rfl, fun a b => rfl, fun a b => by rw [eq_same, same], fun a b => by rw [eq_same, same],
    fun a b => by rw [eq_same, same], fun a b => ?_⟩
  rw [eq_same]
  cases a <;> cases b <;> rfl

/-- `PreTag("rc") != Version.parse("1")`; `1.0 == 1`; `EMPTY != VersionRange()`. -/
example : (tag .pre rcTag).eq (version (exVersion [1])) = false ∧ (version (exVersion [1, 0])).eq (version (exVersion [1])) = true ∧
    (ofSet .empty).ne (item (exPoint [1])) = true := by decide +kernel

/-- **C89** When the ordering operators return, and which exceptions they raise otherwise. -/
theorem C89_outcome (op : CmpOp) (a b : Obj) :
    ((∃ r, ord op a b = .ok r) ↔ (a.kind = b.kind ∧ a.Ordered) ∨ a.IsInfinite ∨ (b.IsInfinite ∧ ¬ a.IsItem)) ∧
    (ord op a b = .error .attributeError ↔ ¬ a.IsInfinite ∧ ((a.IsItem ∧ ¬ b.IsItem) ∨ (¬ a.IsItem ∧ b.IsItem))) ∧
    ∀ e, ord op a b = .error e → e = .attributeError ∨ e = .typeError := by
  have hio : ∀ a : Obj, a.IsItem → ¬ a.IsInfinite := by
    intro a h; simp only [IsItem] at h; simp [IsInfinite, h]
  have hkk : a.kind = b.kind → (a.IsItem ↔ b.IsItem) := by intro h; simp only [IsItem, h]
  rcases outcome op a b with ⟨⟨r, h1⟩, h2⟩ | ⟨h1, h2⟩ | ⟨h1, h2⟩
  · rw [h1]
    refine ⟨⟨fun _ => h2, fun _ => ⟨r, rfl⟩⟩, ?_, by simp⟩
    simp only [reduceCtorEq, false_iff]
    have hb := hio b
    tauto
  · rw [h1]
    have hb := hio b
    refine ⟨?_, by simp [h2], by simp⟩
    simp only [reduceCtorEq, exists_false, false_iff]
    tauto
  · rw [h1]
    refine ⟨?_, ?_, by simp⟩
    · simp only [reduceCtorEq, exists_false, false_iff]
      tauto
    · simp only [Except.error.injEq, reduceCtorEq, false_iff]
      tauto

/-- `1 < infinity` returns, `[1, 2) < infinity` raises `AttributeError` though `infinity < [1, 2)` returns, `1 < Epoch()` raises
`TypeError`, and so does comparing an empty set with itself. -/
example : ord .lt (version (exVersion [1])) infinity = .ok true ∧
    ord .lt (item (exRange (some [1]) (some [2]))) infinity = .error .attributeError ∧
    ord .lt infinity (item (exRange (some [1]) (some [2]))) = .ok false ∧
    ord .lt (version (exVersion [1])) (epoch ⟨0⟩) = .error .typeError ∧ ord .le Obj.empty Obj.empty = .error .typeError := by
  decide +kernel

/-- **C89** Wherever `<` returns, so do the other three, and they agree with `<` and `==`; a comparison and its reflection agree
where both return; `<` is transitive. -/
theorem C89_order (a b c : Obj) (p : Bool) (h : ord .lt a b = .ok p) :
    ord .le a b = .ok (p || a.eq b) ∧ ord .gt a b = .ok (!(p || a.eq b)) ∧ ord .ge a b = .ok (!p) ∧
      (∀ op r s, ord op a b = .ok r → ord op.reflected b a = .ok s → r = s) ∧
      (p = true → ord .lt b c = .ok true → ord .lt a c = .ok true) := by
  rcases answers h with ⟨α, f, o, e, F, ⟨x, rfl⟩, y, rfl⟩ | rfl | rfl | ⟨h1, h2, rfl | rfl⟩
  · rw [F.ord, Except.ok.injEq] at h
    subst h
    simp only [F.ord, F.eq, Except.ok.injEq]
    refine ⟨F.laws.le x y, F.laws.gt x y, F.laws.ge x y, ?_, fun hp hc => ?_⟩
    · rintro op r s rfl rfl
      exact (F.laws.swap op x y).symm
    · have fin : ∀ z, ¬ (f z).IsInfinite := fun z hz => by
        have := F.ordered z
        rcases hz with hz | hz <;> simp [Ordered, hz] at this
      have hk := F.kinds x y
      rcases outcome .lt (f y) c with ⟨-, ⟨h1, -⟩ | h1 | ⟨h1, h2⟩⟩ | ⟨h1, -⟩ | ⟨h1, -⟩
      · obtain ⟨z, rfl⟩ := F.onto y c h1.symm
        rw [F.ord, Except.ok.injEq] at hc
        rw [F.ord, F.laws.trans x y z hp hc]
      · exact absurd h1 (fin y)
      · rw [IsItem, ← hk] at h2
        rcases infinite_cases h1 with rfl | rfl
        · exact (ord_right_infinity .lt h2 (fin x)).1
        · rw [(ord_right_infinity .lt (by rwa [IsItem, ← hk]) (fin y)).2] at hc; cases hc
      · rw [hc] at h1; cases h1
      · rw [hc] at h1; cases h1
  · rw [ord_infinity, Except.ok.injEq] at h
    subst h
    simp only [ord_infinity, (eq_infinity b).1, Bool.false_or, Bool.not_false, Except.ok.injEq, true_and, Bool.false_eq_true, false_implies, and_true]
    rintro op r s rfl hs
    by_cases hb : b.IsInfinite
    · rcases infinite_cases hb with rfl | rfl
      · rw [ord_infinity] at hs; cases op <;> simp_all [CmpOp.reflected, isInfinity]
      · rw [ord_negativeInfinity] at hs; cases op <;> simp_all [CmpOp.reflected, isInfinity, isNegativeInfinity]
    · by_cases hi : b.IsItem
      · have := ((C89_outcome op.reflected b infinity).2.1).2 ⟨hb, .inl ⟨hi, by simp [IsItem, kind]⟩⟩
        rw [this] at hs; cases hs
      · rw [(ord_right_infinity op.reflected hi hb).1] at hs
        cases op <;> simp_all [CmpOp.reflected, finite_eq hb]
  · rw [ord_negativeInfinity, Except.ok.injEq] at h
    subst h
    simp only [ord_negativeInfinity, (eq_infinity b).2]
    refine ⟨by simp, by simp, by simp, ?_, fun hp hc => ?_⟩
    · rintro op r s hr hs
      rw [Except.ok.injEq] at hr
      by_cases hb : b.IsInfinite
      · rcases infinite_cases hb with rfl | rfl
        · rw [ord_infinity] at hs; cases op <;> simp_all [CmpOp.reflected, isInfinity, isNegativeInfinity]
        · rw [ord_negativeInfinity] at hs; cases op <;> simp_all [CmpOp.reflected, isNegativeInfinity]
      · by_cases hi : b.IsItem
        · have := ((C89_outcome op.reflected b negativeInfinity).2.1).2 ⟨hb, .inl ⟨hi, by simp [IsItem, kind]⟩⟩
          rw [this] at hs; cases hs
        · rw [(ord_right_infinity op.reflected hi hb).2] at hs
          cases op <;> simp_all [CmpOp.reflected, finite_eq hb]
    · have hcn : c ≠ negativeInfinity := by
        rintro rfl
        have h0 : ord .gt negativeInfinity b = .ok false := ord_negativeInfinity .gt b
        have : ¬ b.IsItem := fun hi => by
          have := ((C89_outcome .lt b negativeInfinity).2.1).2
            ⟨by simp only [IsItem] at hi; simp [IsInfinite, hi], .inl ⟨hi, by simp [IsItem, kind]⟩⟩
          rw [this] at hc; cases hc
        by_cases hb : b.IsInfinite
        · rcases infinite_cases hb with rfl | rfl
          · rw [ord_infinity] at hc; cases hc
          · rw [ord_negativeInfinity] at hc; simp [isNegativeInfinity] at hc
        · rw [(ord_right_infinity .lt this hb).2] at hc; cases hc
      cases c <;> simp_all [isNegativeInfinity]
  · rw [(ord_right_infinity .lt h1 h2).1, Except.ok.injEq] at h
    subst h
    rw [(ord_right_infinity .le h1 h2).1, (ord_right_infinity .gt h1 h2).1, (ord_right_infinity .ge h1 h2).1, (finite_eq h2).1]
    refine ⟨rfl, rfl, rfl, ?_, fun _ hc => ?_⟩
    · rintro op r s hr hs
      rw [(ord_right_infinity op h1 h2).1] at hr
      rw [ord_infinity, (finite_eq h2).2.2.1] at hs
      cases op <;> simp_all [CmpOp.reflected]
    · rw [ord_infinity] at hc; cases hc
  · rw [(ord_right_infinity .lt h1 h2).2, Except.ok.injEq] at h
    subst h
    rw [(ord_right_infinity .le h1 h2).2, (ord_right_infinity .gt h1 h2).2, (ord_right_infinity .ge h1 h2).2, (finite_eq h2).2.1]
    refine ⟨rfl, rfl, rfl, ?_, fun hf => by cases hf⟩
    rintro op r s hr hs
    rw [(ord_right_infinity op h1 h2).2] at hr
    rw [ord_negativeInfinity, (finite_eq h2).2.2.2] at hs
    cases op <;> simp_all [CmpOp.reflected]

/-- `1 < 2` and `2 < infinity`, so `1 < infinity`. -/
example : ord .lt (version (exVersion [1])) infinity = .ok true :=
  (C89_order (version (exVersion [1])) (version (exVersion [2])) infinity true (by decide +kernel)).2.2.2.2 rfl (by decide +kernel)

/-- **C89** The infinities: bounds of everything, negation swaps them and reverses the order, their representations, and the guard. -/
theorem C89_infinities (x : Obj) :
    ord .le negativeInfinity x = .ok true ∧ ord .ge infinity x = .ok true ∧
    (¬ x.IsItem → ord .ge x negativeInfinity = .ok true ∧ ord .le x infinity = .ok true) ∧
    (x.isAnyInfinity = true ↔ x.IsInfinite) ∧
    (x.IsInfinite → ∃ y, x.neg = .ok y ∧ y.neg = .ok x ∧ y.IsInfinite ∧ x.eq y = false ∧
      ∀ z w op, z.IsInfinite → z.neg = .ok w → ord op y w = ord op z x) ∧
    (¬ x.IsInfinite → x.neg = .error .typeError) ∧
    NegativeInfinity.repr = '-' :: Infinity.repr ∧ Infinity.repr = "infinity".toList := by
  refine ⟨ord_negativeInfinity _ _, ord_infinity _ _, fun hi => ?_, ?_, fun hx => ?_, fun hx => ?_, rfl, rfl⟩
  · by_cases hx : x.IsInfinite
    · rcases infinite_cases hx with rfl | rfl <;> simp [ord_infinity, ord_negativeInfinity, isInfinity, isNegativeInfinity]
    · exact ⟨(ord_right_infinity .ge hi hx).2, (ord_right_infinity .le hi hx).1⟩
  · rcases x with _ | _ | ⟨_ | _ | _, _⟩ | _ | _ | _ | _ | (_ | _ | _ | _ | _) | _ | i | _ | _ | _ <;>
      simp [isAnyInfinity, isInfinity, isNegativeInfinity, IsInfinite, kind]
  · rcases infinite_cases hx with rfl | rfl
    · refine ⟨negativeInfinity, rfl, rfl, .inr rfl, rfl, fun z w op hz hw => ?_⟩
      rcases infinite_cases hz with rfl | rfl <;> simp only [neg, Except.ok.injEq] at hw <;> subst hw <;> cases op <;> rfl
    · refine ⟨infinity, rfl, rfl, .inl rfl, rfl, fun z w op hz hw => ?_⟩
      rcases infinite_cases hz with rfl | rfl <;> simp only [neg, Except.ok.injEq] at hw <;> subst hw <;> cases op <;> rfl
  · cases x <;> simp [neg, IsInfinite, kind] at hx ⊢

example : ord .gt infinity (opType .caret) = .ok true ∧ negativeInfinity.neg = .ok infinity ∧
    ord .lt negativeInfinity infinity = .ok true ∧ (version (exVersion [1])).neg = .error .typeError :=
  ⟨rfl, rfl, rfl, rfl⟩

/-- **C89** The comparisons with infinities that the keys of versions and the ends of ranges use are those of Python's dispatch. -/
theorem C89_extended (op : CmpOp) :
    (∀ a b : Ext Version, ord op (ofExt version a) (ofExt version b) = .ok (PyCmp.op op a b)) ∧
    (∀ (c : TagClass) (a b : Ext Tag), ord op (ofExt (tag c) a) (ofExt (tag c) b) = .ok (PyCmp.op op a b)) ∧
    ∀ a b : Ext Local, ord op (ofExt local_ a) (ofExt local_ b) = .ok (PyCmp.op op a b) := by
  refine ⟨fun a b => ?_, fun c a b => ?_, fun a b => ?_⟩ <;> cases a <;> cases b <;> cases op <;>
    simp [ofExt, ord, subclassFirst, ordMethod, PyCmp.op, CmpOp.reflected, isInfinity, isNegativeInfinity] <;> rfl

example : ord .lt (ofExt (tag .pre) (.fin rcTag)) (ofExt (tag .pre) .posInf) = .ok true ∧
    ord .lt (ofExt (tag .pre) .posInf) (ofExt (tag .pre) (.fin rcTag)) = .ok false := by decide +kernel

end Verif
