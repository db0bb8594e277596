import Verif.Proofs.LimitSpecifiers
import Verif.Proofs.SetPrinting
import Verif.Proofs.Pep440
import Verif.Proofs.SetReading
import Verif.Props.Failures
/-!
# Printing under a limit on the number of digits
-/

namespace Verif

/-! ### the length of numerals -/

theorem natStr_length (k n : Nat) : (natStr n).length ≤ k + 1 ↔ n < 10 ^ (k + 1) := by
  induction k generalizing n with
  | zero =>
    by_cases h : n < 10
    · rw [natStr_small h]
      simp [h]
    · rw [natStr_step (by omega), List.length_append]
      have : 0 < (natStr (n / 10)).length := List.length_pos_iff.2 (natStr_digits _).1
      simp only [List.length_singleton]
      omega
  | succ k ih =>
    by_cases h : n < 10
    · rw [natStr_small h]
      have : 10 ^ 1 ≤ 10 ^ (k + 1 + 1) := Nat.pow_le_pow_right (by omega) (by omega)
      simp only [List.length_singleton]
      omega
    · rw [natStr_step (by omega), List.length_append, List.length_singleton, Nat.pow_succ, ← Nat.div_lt_iff_lt_mul (by omega), ← ih]
      omega

/-- The number has at most `limit` digits. -/
def FitsInt (limit : Nat) (n : Int) : Prop := limit = 0 ∨ n.natAbs < 10 ^ limit

theorem fitsInt_zero (limit : Nat) : FitsInt limit 0 := .inr (Nat.pos_of_ne_zero (by simp))

/-- `y` is `x` if `F`, and `ValueError` if not. -/
structure Gate {α : Type} (F : Prop) (x y : Except PyErr α) : Prop where
  same : F → y = x
  fails : ¬ F → y = .error .valueError

namespace Gate
variable {α β : Type} {F G : Prop}

theorem congr {x y : Except PyErr α} (h : Gate F x y) (e : G ↔ F) : Gate G x y := ⟨fun g => h.same (e.1 g), fun g => h.fails (fun f => g (e.2 f))⟩

theorem pure (x : α) : Gate True (.ok x) (.ok x) := ⟨fun _ => rfl, fun h => absurd trivial h⟩

theorem bind {x : α} {y : Except PyErr α} {z : Except PyErr β} {g : α → Except PyErr β} (h : Gate F (.ok x) y) (h' : Gate G z (g x)) :
    Gate (F ∧ G) z (y >>= g) := by
  refine ⟨fun ⟨f, g⟩ => ?_, fun hn => ?_⟩
  · rw [h.same f]
    exact h'.same g
  · by_cases f : F
    · rw [h.same f]
      exact h'.fails (fun g => hn ⟨f, g⟩)
    · rw [h.fails f]
      rfl

theorem map {x : α} {y : Except PyErr α} (f : α → β) (h : Gate F (.ok x) y) : Gate F (.ok (f x)) (do .ok (f (← y))) :=
  (h.bind (G := True) (z := .ok (f x)) (g := fun a => .ok (f a)) (pure _)).congr (by simp)

theorem mapAll {F : α → Prop} {f : α → Except PyErr β} {g : α → β} {l : List α} (h : ∀ a ∈ l, Gate (F a) (.ok (g a)) (f a)) :
    Gate (∀ a ∈ l, F a) (.ok (l.map g)) (Verif.mapAll f l) := by
  induction l with
  | nil => exact ⟨fun _ => rfl, fun h => absurd (by simp) h⟩
  | cons a l ih =>
    have ih := ih (fun x hx => h x (List.mem_cons_of_mem _ hx))
    rw [Verif.mapAll]
    exact ((h a (by simp)).bind (ih.map (fun bs => g a :: bs))).congr (by simp)

end Gate

theorem gate_int (limit : Nat) (n : Int) : Gate (FitsInt limit n) (.ok (intStr n)) (intStrMax limit n) := by
  have e : (intStr n).filter isDecimal = natStr n.natAbs := by
    cases n with
    | ofNat n => exact digits_filter (natStr_digits n)
    | negSucc n =>
      have : intStr (.negSucc n) = '-' :: natStr (n + 1) := rfl
      rw [this, List.filter_cons_of_neg (by decide), digits_filter (natStr_digits _)]
      rfl
  have hl : FitsInt limit n ↔ ¬ (limit ≠ 0 ∧ limit < (natStr n.natAbs).length) := by
    unfold FitsInt
    cases limit with
    | zero => simp
    | succ k =>
      rw [← natStr_length]
      simp
  unfold intStrMax
  rw [e]
  refine ⟨fun h => if_neg (hl.1 h), fun h => if_pos ?_⟩
  by_contra hc
  exact h (hl.2 hc)

/-! ### versions -/

theorem gate_release (limit : Nat) (r : Release) : Gate (∀ n ∈ r.parts, FitsInt limit n) (.ok r.toStr) (r.toStrMax limit) :=
  (Gate.mapAll (fun n _ => gate_int limit n)).map (join ['.'])

/-- The number in a part. -/
def LocalPart.FitsPart (limit : Nat) : LocalPart → Prop
  | .int n => FitsInt limit n
  | .str _ => True

theorem gate_part (limit : Nat) (x : LocalPart) : Gate (x.FitsPart limit) (.ok x.toStr) (x.toStrMax limit) := by
  cases x with
  | int n => exact gate_int limit n
  | str s => exact Gate.pure s

theorem gate_local (limit : Nat) (l : Local) : Gate (∀ x ∈ l.parts, x.FitsPart limit) (.ok l.toStr) (l.toStrMax limit) :=
  (Gate.mapAll (fun x _ => gate_part limit x)).map (join ['.'])

theorem gate_tag (limit : Nat) (t : Tag) : Gate (FitsInt limit t.value) (.ok t.toStr) (t.toStrMax limit) :=
  (gate_int limit t.value).map (fun s => join ['.'] [t.phase, s])

theorem gate_short_tag (limit : Nat) (t : Tag) : Gate (FitsInt limit t.value) (.ok t.toShortStr) (t.toShortStrMax limit) :=
  (gate_int limit t.value).map (fun s => join [] [t.short, s])

namespace Version

theorem gate_opt {α : Type} {F : α → Prop} {f : α → Except PyErr PyStr} {g : α → PyStr} (h : ∀ a, Gate (F a) (.ok (g a)) (f a)) (pre : PyStr) (x : Option α) :
    Gate (∀ a ∈ x.toList, F a) (.ok (part pre g x)) (partMax pre f x) := by
  cases x with
  | none => exact (Gate.pure _).congr (by simp)
  | some a => exact ((h a).map (fun s => [pre, s])).congr (by simp)

theorem gate_epoch (limit : Nat) (e : Epoch) : Gate (FitsInt limit e.value) (.ok (epochPart e)) (epochPartMax limit e) := by
  unfold epochPart epochPartMax
  cases h : e.truthy with
  | true => exact (gate_int limit e.value).map (fun s => [s, ['!']])
  | false =>
    have : e.value = 0 := by simpa [Epoch.truthy] using h
    rw [this]
    exact (Gate.pure _).congr (by simp [fitsInt_zero])

theorem fits_iff (limit : Nat) (v : Version) : v.Fits limit ↔
    FitsInt limit v.epoch.value ∧ (∀ n ∈ v.release.parts, FitsInt limit n) ∧ (∀ t ∈ v.pre.toList, FitsInt limit t.value) ∧
      (∀ t ∈ v.post.toList, FitsInt limit t.value) ∧ (∀ t ∈ v.dev.toList, FitsInt limit t.value) ∧
      ∀ l ∈ v.local_.toList, ∀ x ∈ l.parts, x.FitsPart limit := by
  have e : v.Fits limit ↔ ∀ n ∈ v.numbers, FitsInt limit n := by
    unfold Fits FitsInt
    by_cases h : limit = 0
    · simp [h]
    · simp [h]
  rw [e]
  unfold numbers
  have hl : (∀ n ∈ (v.local_.toList.flatMap (·.parts)).filterMap (fun p => match p with | .int n => some n | .str _ => none), FitsInt limit n) ↔
      ∀ l ∈ v.local_.toList, ∀ x ∈ l.parts, x.FitsPart limit := by
    simp only [List.mem_filterMap, List.mem_flatMap]
    constructor
    · intro h l hl x hx
      cases x with
      | str s => exact trivial
      | int n => exact h n ⟨.int n, ⟨l, hl, hx⟩, rfl⟩
    · rintro h n ⟨x, ⟨l, hl, hx⟩, e⟩
      cases x with
      | str s => cases e
      | int m =>
        cases e
        exact h l hl _ hx
  rw [← hl]
  simp only [List.mem_append, List.mem_cons, List.mem_map, or_imp, forall_and, forall_eq, forall_exists_index, and_imp, forall_apply_eq_imp_iff₂]
  tauto

theorem gate_str (limit : Nat) (v : Version) : Gate (v.Fits limit) (.ok v.toStr) (v.toStrMax limit) := by
  refine Gate.congr ?_ ((fits_iff limit v).trans (by rw [← and_true (∀ l ∈ v.local_.toList, _)]))
  unfold toStrMax
  refine Gate.bind (gate_epoch limit v.epoch) ?_
  refine Gate.bind (gate_release limit v.release) ?_
  refine Gate.bind (gate_opt (gate_tag limit) ['-'] v.pre) ?_
  refine Gate.bind (gate_opt (gate_tag limit) ['-'] v.post) ?_
  refine Gate.bind (gate_opt (gate_tag limit) ['-'] v.dev) ?_
  refine Gate.bind (gate_opt (gate_local limit) ['+'] v.local_) ?_
  exact Gate.pure _

theorem gate_short (limit : Nat) (v : Version) : Gate (v.Fits limit) (.ok v.toShortStr) (v.toShortStrMax limit) := by
  refine Gate.congr ?_ ((fits_iff limit v).trans (by rw [← and_true (∀ l ∈ v.local_.toList, _)]))
  unfold toShortStrMax
  refine Gate.bind (gate_epoch limit v.epoch) ?_
  refine Gate.bind (gate_release limit v.release) ?_
  refine Gate.bind (gate_opt (gate_short_tag limit) [] v.pre) ?_
  refine Gate.bind (gate_opt (gate_short_tag limit) ['.'] v.post) ?_
  refine Gate.bind (gate_opt (gate_short_tag limit) ['.'] v.dev) ?_
  refine Gate.bind (gate_opt (gate_local limit) ['+'] v.local_) ?_
  exact Gate.pure _

theorem release_fits (limit : Nat) (r : Release) : (∀ n ∈ r.parts, FitsInt limit n) ↔ ∀ i, FitsInt limit (r.part i) := by
  constructor
  · intro h i
    unfold Release.part
    rw [List.getD_eq_getElem?_getD]
    cases e : r.parts[i]? with
    | none => exact fitsInt_zero limit
    | some n => exact h n (List.mem_of_getElem? e)
  · intro h n hn
    obtain ⟨i, hi, e⟩ := List.getElem_of_mem hn
    have := h i
    unfold Release.part at this
    rwa [List.getD_eq_getElem?_getD, List.getElem?_eq_getElem hi, e] at this

/-- Equal versions have the same numbers, up to zeros. -/
theorem fits_congr (limit : Nat) {v w : Version} (hv : v.Valid) (hw : w.Valid) (h : v ==ₚ w) : v.Fits limit ↔ w.Fits limit := by
  obtain ⟨h1, h2, h3, h4, h5, h6⟩ := (key_eq_iff v w).1 ((veq_iff v w).1 h)
  rw [compareParts_eq_iff _ _ hv.release hw.release] at h2
  rw [fits_iff, fits_iff, release_fits, release_fits, h1, h3, h4, h5, h6]
  simp only [h2]

end Version

/-! ### operators and specifiers -/

theorem gate_op (limit : Nat) (o : Operator) : Gate (o.version.Fits limit) (.ok o.toStr) (o.toStrMax limit) :=
  (Version.gate_str limit o.version).map (fun s =>
    let s := if o.type.isWildcard then wildcardString s else s
    if o.type.isUnary then join [] [o.type.string, s] else join [' '] [o.type.string, s])

theorem gate_short_op (limit : Nat) (o : Operator) : Gate (o.version.Fits limit) (.ok o.toShortStr) (o.toShortStrMax limit) :=
  (Version.gate_short limit o.version).map (fun s =>
    let s := if o.type.isWildcard then wildcardString s else s
    join [] [o.type.string, s])

namespace Specifier

theorem uses_one {o p : Operator} : (one o).Uses p ↔ p = o := ⟨fun h => by cases h; rfl, fun h => h ▸ .one o⟩

/-- The versions in the specifier fit. -/
def Fits (limit : Nat) (s : Specifier) : Prop := ∀ o, s.Uses o → o.version.Fits limit

theorem fits_list (limit : Nat) {l : List Specifier} {s : Specifier} (h : ∀ o, s.Uses o ↔ ∃ x ∈ l, x.Uses o) :
    s.Fits limit ↔ ∀ x ∈ l, x.Fits limit :=
  ⟨fun hs x hx o ho => hs o ((h o).2 ⟨x, hx, ho⟩), fun hl o ho => by
    obtain ⟨x, hx, hxo⟩ := (h o).1 ho
    exact hl x hx o hxo⟩

theorem fits_cons (limit : Nat) (s : Specifier) (l : List Specifier) :
    (∀ x ∈ s :: l, x.Fits limit) ↔ s.Fits limit ∧ ∀ x ∈ l, x.Fits limit := by simp

mutual
theorem gate_str (limit : Nat) : (s : Specifier) → Gate (s.Fits limit) (.ok s.toStr) (s.toStrMax limit)
  | never => by
    rw [toStr, toStrMax]
    exact (Gate.pure _).congr ⟨fun _ => trivial, fun _ o h => by cases h⟩
  | always => by
    rw [toStr, toStrMax]
    exact (Gate.pure _).congr ⟨fun _ => trivial, fun _ o h => by cases h⟩
  | one o => by
    rw [toStr, toStrMax]
    exact (gate_op limit o).congr ⟨fun h => h o (.one o), fun h p hp => by cases hp; exact h⟩
  | any l => by
    rw [toStr, toStrMax]
    exact ((gate_strs limit l).map (fun x => wrapAround (join " || ".toList x))).congr (fits_list limit (fun _ => uses_any))
  | all l => by
    rw [toStr, toStrMax]
    exact ((gate_strs limit l).map (fun x => wrapAround (join ", ".toList x))).congr (fits_list limit (fun _ => uses_all))
theorem gate_strs (limit : Nat) : (l : List Specifier) → Gate (∀ s ∈ l, s.Fits limit) (.ok (toStrs l)) (toStrsMax limit l)
  | [] => by
    rw [toStrs, toStrsMax]
    exact (Gate.pure _).congr (by simp)
  | s :: l => by
    rw [toStrs, toStrsMax]
    exact ((gate_str limit s).bind ((gate_strs limit l).map (fun b => toStr s :: b))).congr (fits_cons limit s l)
end

mutual
theorem gate_short (limit : Nat) : (s : Specifier) → Gate (s.Fits limit) (.ok s.toShortStr) (s.toShortStrMax limit)
  | never => by
    rw [toShortStr, toShortStrMax]
    exact (Gate.pure _).congr ⟨fun _ => trivial, fun _ o h => by cases h⟩
  | always => by
    rw [toShortStr, toShortStrMax]
    exact (Gate.pure _).congr ⟨fun _ => trivial, fun _ o h => by cases h⟩
  | one o => by
    rw [toShortStr, toShortStrMax]
    exact (gate_short_op limit o).congr ⟨fun h => h o (.one o), fun h p hp => by cases hp; exact h⟩
  | any l => by
    rw [toShortStr, toShortStrMax]
    exact ((gate_shorts limit l).map (fun x => wrapAround (join "||".toList x))).congr (fits_list limit (fun _ => uses_any))
  | all l => by
    rw [toShortStr, toShortStrMax]
    exact ((gate_shorts limit l).map (fun x => wrapAround (join ",".toList x))).congr (fits_list limit (fun _ => uses_all))
theorem gate_shorts (limit : Nat) : (l : List Specifier) → Gate (∀ s ∈ l, s.Fits limit) (.ok (toShortStrs l)) (toShortStrsMax limit l)
  | [] => by
    rw [toShortStrs, toShortStrsMax]
    exact (Gate.pure _).congr (by simp)
  | s :: l => by
    rw [toShortStrs, toShortStrsMax]
    exact ((gate_short limit s).bind ((gate_shorts limit l).map (fun b => toShortStr s :: b))).congr (fits_cons limit s l)
end

end Specifier

/-! ### sets -/

theorem ends_range (P : Version → Prop) (mn mx : Option Version) (x y : Bool) :
    (Item.range ⟨mn, mx, x, y⟩).Ends P ↔ (∀ v ∈ mn.toList, P v) ∧ ∀ v ∈ mx.toList, P v := by
  cases mn <;> cases mx <;> simp [Item.Ends, Item.min, Item.max, Item.fields]

theorem join_one (sep s : PyStr) : join sep [s] = s := by simp [join]

theorem gate_item (limit : Nat) {i : Item} (hi : i.Normal) : Gate (i.Ends (Version.Fits limit)) i.toStr (i.toStrMax limit) := by
  rw [long_item hi]
  cases i with
  | point v => exact (Version.gate_str limit v).congr (ends_point)
  | range r =>
    obtain ⟨mn, mx, x, y⟩ := r
    rw [ends_range]
    simp only [Item.toStrMax, isEmpty_false hi, isPoint_range_false hi]
    cases hu : (Item.range ⟨mn, mx, x, y⟩).isUniversal with
    | true =>
      have := (isUniversal_iff hi).1 hu
      unfold universalItem at this
      cases this
      exact (Gate.pure _).congr (by simp)
    | false =>
      have op := gate_op limit
      cases mn with
      | none => cases mx with
        | none =>
          obtain ⟨g1, g2, -⟩ := hi
          obtain rfl : x = false := g1 rfl
          obtain rfl : y = false := g2 rfl
          exact absurd hu (by decide)
        | some b =>
          have h := (Gate.mapAll (l := [⟨if y then .lessOrEqual else .less, b⟩]) (fun o _ => op o)).map (join ", ".toList)
          have h' := h.congr (G := (∀ v ∈ (none : Option Version).toList, v.Fits limit) ∧ ∀ v ∈ (some b).toList, v.Fits limit) (by simp)
          simp only [List.map_cons, List.map_nil, join_one] at h'
          cases y <;> exact h'
      | some a => cases mx with
        | none =>
          have h := (Gate.mapAll (l := [⟨if x then .greaterOrEqual else .greater, a⟩]) (fun o _ => op o)).map (join ", ".toList)
          have h' := h.congr (G := (∀ v ∈ (some a).toList, v.Fits limit) ∧ ∀ v ∈ (none : Option Version).toList, v.Fits limit) (by simp)
          simp only [List.map_cons, List.map_nil, join_one] at h'
          cases x <;> exact h'
        | some b =>
          have h := (Gate.mapAll (l := [⟨if x then .greaterOrEqual else .greater, a⟩, ⟨if y then .lessOrEqual else .less, b⟩]) (fun o _ => op o)).map (join ", ".toList)
          have h' := h.congr (G := (∀ v ∈ (some a).toList, v.Fits limit) ∧ ∀ v ∈ (some b).toList, v.Fits limit) (by simp)
          cases x <;> cases y <;> exact h'

theorem gate_short_item (limit : Nat) {i : Item} (hi : i.Normal) : Gate (i.Ends (Version.Fits limit)) i.toShortStr (i.toShortStrMax limit) := by
  rw [short_item hi]
  cases i with
  | point v => exact (Version.gate_short limit v).congr (ends_point)
  | range r =>
    obtain ⟨mn, mx, x, y⟩ := r
    rw [ends_range]
    simp only [Item.toShortStrMax, isEmpty_false hi, isPoint_range_false hi]
    cases hu : (Item.range ⟨mn, mx, x, y⟩).isUniversal with
    | true =>
      have := (isUniversal_iff hi).1 hu
      unfold universalItem at this
      cases this
      exact (Gate.pure _).congr (by simp)
    | false =>
      have op := gate_short_op limit
      cases mn with
      | none => cases mx with
        | none =>
          obtain ⟨g1, g2, -⟩ := hi
          obtain rfl : x = false := g1 rfl
          obtain rfl : y = false := g2 rfl
          exact absurd hu (by decide)
        | some b =>
          have h := (Gate.mapAll (l := [⟨if y then .lessOrEqual else .less, b⟩]) (fun o _ => op o)).map (join ",".toList)
          have h' := h.congr (G := (∀ v ∈ (none : Option Version).toList, v.Fits limit) ∧ ∀ v ∈ (some b).toList, v.Fits limit) (by simp)
          simp only [List.map_cons, List.map_nil, join_one] at h'
          cases y <;> exact h'
      | some a => cases mx with
        | none =>
          have h := (Gate.mapAll (l := [⟨if x then .greaterOrEqual else .greater, a⟩]) (fun o _ => op o)).map (join ",".toList)
          have h' := h.congr (G := (∀ v ∈ (some a).toList, v.Fits limit) ∧ ∀ v ∈ (none : Option Version).toList, v.Fits limit) (by simp)
          simp only [List.map_cons, List.map_nil, join_one] at h'
          cases x <;> exact h'
        | some b =>
          have h := (Gate.mapAll (l := [⟨if x then .greaterOrEqual else .greater, a⟩, ⟨if y then .lessOrEqual else .less, b⟩]) (fun o _ => op o)).map (join ",".toList)
          have h' := h.congr (G := (∀ v ∈ (some a).toList, v.Fits limit) ∧ ∀ v ∈ (some b).toList, v.Fits limit) (by simp)
          cases x <;> cases y <;> exact h'

/-- If all versions but `v` are in the set, the ends are `v`. -/
theorem exclude_fits (limit : Nat) {items : List Item} (hx : (VSet.union items).Normal) (hv : AllEnds Version.Valid items) {v : Version}
    (h : VSet.excludeVersion 0 items = .ok (some v)) : AllEnds (Version.Fits limit) items ↔ v.Fits limit := by
  refine ⟨exclude_ends h, fun hf => ?_⟩
  have hvv : v.Valid := exclude_ends h hv
  obtain ⟨z, z1, z2, z3⟩ := complement_spec hx
  have hz : z = .item (.point v) := by
    simp only [VSet.excludeVersion, z1, bind, Except.bind] at h
    cases z with
    | empty => cases h
    | union _ => cases h
    | item i => cases i with
      | range _ => cases h
      | point w => cases h; rfl
  subst hz
  obtain ⟨l, l1, l2, l3⟩ := complement_point v
  have hcov : ∀ c, (VSet.union items).Cov c ↔ (VSet.union l).Cov c := by
    intro c
    rw [l3, z3]
    constructor
    · exact fun h => ⟨cov_lt_top h, fun h' => h'.2 h⟩
    · rintro ⟨h1, h2⟩; by_contra h; exact h2 ⟨h1, h⟩
  have he := (eq_iff_cov hx l2).2 hcov
  have hl : AllEnds (fun w => w = v) l := complement_ends (a := .item (.point v)) (lim := 0) (by
    intro i hi
    simp only [VSet.extract, List.mem_singleton] at hi
    subst hi
    exact ends_point.2 rfl) (l1 0)
  simp only [VSet.eq, Bool.and_eq_true, beq_iff_eq, List.all_eq_true] at he
  obtain ⟨hlen, he⟩ := he
  intro i hi
  obtain ⟨n, hn, rfl⟩ := List.getElem_of_mem hi
  have hn' : n < l.length := hlen ▸ hn
  have hm : (items[n], l[n]) ∈ items.zip l := by
    rw [← List.getElem_zip (h := by simp [hn, hn'])]
    exact List.getElem_mem _
  have hin := he _ hm
  simp only [Item.eq, Bool.and_eq_true] at hin
  obtain ⟨⟨⟨e1, e2⟩, -⟩, -⟩ := hin
  have end_ : ∀ a b : Option Version, optEq a b = true → (∀ w, a = some w → w.Valid) → (∀ w, b = some w → w = v) → ∀ w, a = some w → w.Fits limit := by
    intro a b hab ha hb w hw
    subst hw
    cases b with
    | none => cases hab
    | some u =>
      obtain rfl := hb u rfl
      exact (Version.fits_congr limit (ha w rfl) hvv hab).2 hf
  have hl' := hl l[n] (List.getElem_mem _)
  have hv' := hv items[n] hi
  exact ⟨end_ _ _ e1 hv'.1 hl'.1, end_ _ _ e2 hv'.2 hl'.2⟩

theorem gate_set (limit lim : Nat) {x : VSet} (hx : x.Normal) (hv : AllEnds Version.Valid x.extract) :
    Gate (AllEnds (Version.Fits limit) x.extract) (x.toStr lim) (x.toStrMax limit lim) := by
  cases x with
  | empty => exact (Gate.pure _).congr (by simp [AllEnds, VSet.extract])
  | item i => exact (gate_item limit hx).congr (by simp [AllEnds, VSet.extract])
  | union items =>
    have hs : ∃ o, ∀ lim, VSet.excludeVersion lim items = .ok o := by
      obtain ⟨z, z1, -, -⟩ := complement_spec hx
      refine ⟨match z with | .item (.point v) => some v | _ => none, fun lim => ?_⟩
      simp only [VSet.excludeVersion, z1, bind, Except.bind]
      split <;> simp_all
    obtain ⟨o, ho⟩ := hs
    simp only [VSet.toStr, VSet.toStrMax, ho]
    cases o with
    | some v => exact (gate_op limit ⟨.notEqual, v⟩).congr (exclude_fits limit hx hv (ho 0))
    | none =>
      have hm := mapM_items (g := longPrinter.item) (fun i hi => long_item (hx.2.1 i hi))
      simp only [hm]
      exact (Gate.mapAll (fun i hi => long_item (hx.2.1 i hi) ▸ gate_item limit (hx.2.1 i hi))).map (join " || ".toList)

theorem gate_short_set (limit lim : Nat) {x : VSet} (hx : x.Normal) (hv : AllEnds Version.Valid x.extract) :
    Gate (AllEnds (Version.Fits limit) x.extract) (x.toShortStr lim) (x.toShortStrMax limit lim) := by
  cases x with
  | empty => exact (Gate.pure _).congr (by simp [AllEnds, VSet.extract])
  | item i => exact (gate_short_item limit hx).congr (by simp [AllEnds, VSet.extract])
  | union items =>
    have hs : ∃ o, ∀ lim, VSet.excludeVersion lim items = .ok o := by
      obtain ⟨z, z1, -, -⟩ := complement_spec hx
      refine ⟨match z with | .item (.point v) => some v | _ => none, fun lim => ?_⟩
      simp only [VSet.excludeVersion, z1, bind, Except.bind]
      split <;> simp_all
    obtain ⟨o, ho⟩ := hs
    simp only [VSet.toShortStr, VSet.toShortStrMax, ho]
    cases o with
    | some v => exact (gate_short_op limit ⟨.notEqual, v⟩).congr (exclude_fits limit hx hv (ho 0))
    | none =>
      have hm := mapM_items (g := shortPrinter.item) (fun i hi => short_item (hx.2.1 i hi))
      simp only [hm]
      exact (Gate.mapAll (fun i hi => short_item (hx.2.1 i hi) ▸ gate_short_item limit (hx.2.1 i hi))).map (join "||".toList)

/-! ### what is parsed -/

theorem number_lt {d : PyStr} (hd : ∀ c ∈ d, IsDigit c) : number d < 10 ^ d.length := by
  induction d using List.reverseRecOn with
  | nil => decide
  | append_singleton d c ih =>
    have ih := ih (fun x hx => hd x (List.mem_append_left _ hx))
    have hc : c.toNat ≤ 57 := (hd c (by simp)).2
    rw [number_snoc, List.length_append, List.length_singleton, Nat.pow_succ]
    omega

theorem fits_number (limit : Nat) {d : PyStr} (hd : Digits d) (h : FitsNumeral limit d) : FitsInt limit (number d : Int) := by
  rcases h with h | h
  · exact .inl h
  · exact .inr (lt_of_lt_of_le (number_lt hd.2) (Nat.pow_le_pow_right (by omega) h))

/-- What is parsed from numerals that fit has numbers that fit. -/
theorem parsed_fits (limit : Nat) {s : PyStr} {v : Version} (h : Version.parse s = .ok v) (hf : FitsText limit s) : v.Fits limit := by
  obtain ⟨p, hp, -, rfl, ho⟩ := (parse_ok_iff s v).1 h
  have hfit := fitsText_iff limit hp (o := []) (by simp)
  rw [List.nil_append] at hfit
  obtain ⟨h1, h2⟩ := hfit.1 hf
  simp only [Spelling.publicNumerals, List.mem_append, List.mem_cons, or_imp, forall_and, forall_eq] at h1
  obtain ⟨⟨⟨⟨e1, e2, e3⟩, e4⟩, e5⟩, e6⟩ := h1
  have tag : ∀ (t : Option TagSpelling) (x : Option Tag), (∀ d ∈ t.toList.flatMap TagSpelling.numerals, FitsNumeral limit d) →
      (∀ y, t = some y → ∀ s d, y.value = some (s, d) → Digits d) → Spelling.OptOf Spelling.TagOf t x → ∀ y ∈ x.toList, FitsInt limit y.value := by
    intro t x ht hd hx y hy
    cases x with
    | none => simp at hy
    | some x =>
      obtain rfl : y = x := by simpa using hy
      cases t with
      | none => exact absurd hx (by simp [Spelling.OptOf])
      | some t =>
        obtain ⟨-, hv⟩ : Spelling.TagOf t y := hx
        rw [hv]
        unfold TagSpelling.num
        cases hval : t.value with
        | none => exact fitsInt_zero limit
        | some sd => exact fits_number limit (hd t rfl sd.1 sd.2 hval) (ht sd.2 (by simp [TagSpelling.numerals, hval]))
  refine (Version.fits_iff limit v).2 ⟨?_, ?_, ?_, ?_, ?_, ?_⟩
  · rw [ho.epoch]
    cases he : p.epoch with
    | none => exact fitsInt_zero limit
    | some d => exact fits_number limit (hp.epoch d he) (e1 d (by simp [he]))
  · rw [ho.release]
    intro n hn
    obtain ⟨d, hd, rfl⟩ := List.mem_map.1 hn
    rcases List.mem_cons.1 hd with rfl | hd
    · exact fits_number limit hp.major e2
    · exact fits_number limit (hp.release d hd) (e3 d hd)
  · exact tag p.pre v.pre e4 (fun y hy s d h => ((hp.pre y hy).value s d h).2) ho.pre
  · have hpost := ho.post
    cases hpo : p.post with
    | none =>
      rw [hpo] at hpost
      cases hv : v.post with
      | none => simp
      | some x => rw [hv] at hpost; exact absurd hpost (by simp [Spelling.OptOf])
    | some q =>
      cases q with
      | tag t =>
        rw [hpo] at hpost e5
        refine tag (some t) v.post e5 (fun y hy s d h => ?_) ?_
        · cases hy
          exact ((hp.post _ hpo : t.WF postWords).value s d h).2
        · cases hv : v.post with
          | none => rw [hv] at hpost; exact absurd hpost (by simp [Spelling.OptOf])
          | some x => rw [hv] at hpost; exact hpost
      | implicit d =>
        rw [hpo] at hpost e5
        cases hv : v.post with
        | none => simp
        | some x =>
          rw [hv] at hpost
          have hx : x = ⟨"post".toList, number d⟩ := hpost
          intro t ht
          obtain rfl : t = x := by simpa using ht
          rw [hx]
          exact fits_number limit (hp.post _ hpo : Digits d) (e5 d (by simp [PostSpelling.numerals]))
  · exact tag p.dev v.dev e6 (fun y hy s d h => ((hp.dev y hy).value s d h).2) ho.dev
  · intro l hl x hx
    have hloc := ho.local_
    cases hv : v.local_ with
    | none => rw [hv] at hl; simp at hl
    | some m =>
      rw [hv] at hl hloc
      obtain rfl : l = m := by simpa using hl
      cases hpl : p.local_ with
      | none => rw [hpl] at hloc; exact absurd hloc (by simp [Spelling.OptOf])
      | some q =>
        rw [hpl] at hloc
        have hq : List.Forall₂ Spelling.PartOf (q.1 :: q.2.map (·.2)) l.parts := hloc
        obtain ⟨d, hd, hdx⟩ := forall₂_right hq hx
        rcases hdx with ⟨h3, rfl⟩ | ⟨-, rfl⟩
        · exact fits_number limit h3 (h2 d (by simp only [Spelling.localParts, hpl]; simpa using hd) h3)
        · exact trivial

/-! ### what is printed -/

theorem fits_intStr (limit : Nat) {n : Int} (hn : 0 ≤ n) : FitsNumeral limit (intStr n) ↔ FitsInt limit n := by
  unfold FitsNumeral FitsInt
  cases limit with
  | zero => simp
  | succ k =>
    rw [intStr_nonneg hn, natStr_length]
    have : n.toNat = n.natAbs := by omega
    rw [this]

theorem fits_canonical (limit : Nat) {pre post dev : Tag → TagSpelling} {v : Version} (hv : v.Canonical) (hw : (canonicalSpelling pre post dev v).WF)
    (h1 : ∀ t, ∃ s, (pre t).value = some (s, intStr t.value)) (h2 : ∀ t, ∃ s, (post t).value = some (s, intStr t.value))
    (h3 : ∀ t, ∃ s, (dev t).value = some (s, intStr t.value)) (hf : v.Fits limit) : FitsText limit (canonicalSpelling pre post dev v).text := by
  obtain ⟨f1, f2, f3, f4, f5, f6⟩ := (Version.fits_iff limit v).1 hf
  have hfit := fitsText_iff limit hw (o := []) (by simp)
  rw [List.nil_append] at hfit
  rw [hfit]
  have tag : ∀ (f : Tag → TagSpelling) (x : Option Tag), (∀ t, ∃ s, (f t).value = some (s, intStr t.value)) → (∀ t, x = some t → 0 ≤ t.value) →
      (∀ t ∈ x.toList, FitsInt limit t.value) → ∀ d ∈ (x.map f).toList.flatMap TagSpelling.numerals, FitsNumeral limit d := by
    intro f x hs hn hx d hd
    cases x with
    | none => simp at hd
    | some t =>
      obtain ⟨s, hs⟩ := hs t
      have : d = intStr t.value := by simpa [TagSpelling.numerals, hs] using hd
      rw [this, fits_intStr limit (hn t rfl)]
      exact hx t (by simp)
  constructor
  · simp only [Spelling.publicNumerals, canonicalSpelling, List.mem_append, List.mem_cons, or_imp, forall_and, forall_eq]
    refine ⟨⟨⟨⟨?_, ?_, ?_⟩, tag pre v.pre h1 hv.pre f3⟩, ?_⟩, tag dev v.dev h3 hv.dev f5⟩
    · intro d hd
      by_cases he : v.epoch.value = 0
      · simp [he] at hd
      · have : d = intStr v.epoch.value := by simpa [he] using hd
        rw [this, fits_intStr limit hv.epoch]
        exact f1
    · cases hr : v.release.parts with
      | nil => exact absurd hr hv.valid.release
      | cons x l =>
        have hx : x ∈ v.release.parts := by simp [hr]
        exact (fits_intStr limit (hv.release x hx)).2 (f2 x hx)
    · intro d hd
      obtain ⟨n, hn, rfl⟩ := List.mem_map.1 hd
      have hn' := List.mem_of_mem_tail hn
      exact (fits_intStr limit (hv.release n hn')).2 (f2 n hn')
    · have := tag post v.post h2 hv.post f4
      intro d hd
      apply this d
      cases hp : v.post with
      | none => rw [hp] at hd; simp at hd
      | some t =>
        rw [hp] at hd
        simpa [PostSpelling.numerals] using hd
  · intro d hd hdd
    cases hl : v.local_ with
    | none => simp [Spelling.localParts, canonicalSpelling, hl] at hd
    | some l =>
      have hx : ∃ x ∈ l.parts, d = x.toStr := by
        simp only [Spelling.localParts, canonicalSpelling, hl, Option.map_some, Option.toList_some, List.flatMap_cons, List.flatMap_nil, List.append_nil] at hd
        unfold localSpelling at hd
        cases hp : l.parts with
        | nil => exact absurd hp (hv.valid.local_ l hl)
        | cons x xs =>
          rw [hp] at hd
          simp only [List.map_map, List.mem_cons, List.mem_map, Function.comp] at hd
          rcases hd with rfl | ⟨y, hy, rfl⟩
          · exact ⟨x, by simp, rfl⟩
          · exact ⟨y, by simp [hy], rfl⟩
      obtain ⟨x, hx, rfl⟩ := hx
      have hc := hv.local_ l hl x hx
      have hfx := f6 l (by simp [hl]) x hx
      cases x with
      | int n => exact (fits_intStr limit hc).2 hfx
      | str s => exact absurd hdd hc.2

theorem fits_short (limit : Nat) {v : Version} (hv : v.Canonical) : FitsText limit v.toShortStr ↔ v.Fits limit := by
  refine ⟨fun h => parsed_fits limit (parse_short hv) h, fun h => ?_⟩
  rw [text_short hv.valid]
  exact fits_canonical limit hv (good_shortSpelling hv).1 (fun t => ⟨_, rfl⟩) (fun t => ⟨_, rfl⟩) (fun t => ⟨_, rfl⟩) h

theorem fits_long (limit : Nat) {v : Version} (hv : v.Canonical) (hc : ∀ t, v.pre = some t → t.phase ≠ "candidate".toList) :
    FitsText limit v.toStr ↔ v.Fits limit := by
  refine ⟨fun h => parsed_fits limit (parse_long hv hc) h, fun h => ?_⟩
  rw [text_long hv.valid]
  exact fits_canonical limit hv (good_longSpelling hv hc).1 (fun t => ⟨_, rfl⟩) (fun t => ⟨_, rfl⟩) (fun t => ⟨_, rfl⟩) h

end Verif
