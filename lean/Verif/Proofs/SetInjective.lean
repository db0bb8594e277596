import Verif.Proofs.SetReading
/-!
# Strings of version sets determine the sets
-/

namespace Verif
open scoped Verif
open Re Specifier

/-- Versions for which the printer is injective. -/
structure Printer.Inj (p : Printer) (C : Version → Prop) : Prop where
  comma : clearWhitespace p.comma = [',']
  pipe : clearWhitespace p.pipe = ['|', '|']
  plain : ∀ v, C v → Plain (p.ver v)
  head : ∀ v, C v → ∃ c l, p.ver v = c :: l ∧ IsDigit c
  op : ∀ t v, t.isWildcard = false → clearWhitespace (p.op ⟨t, v⟩) = clearWhitespace (t.string ++ p.ver v)
  inj : ∀ v w, C v → C w → p.ver v = p.ver w → v = w

variable {p : Printer} {C : Version → Prop}

theorem Printer.Inj.clear_op (hp : p.Inj C) {t : OpType} (ht : t.isWildcard = false) {v : Version} (hv : C v) :
    clearWhitespace (p.op ⟨t, v⟩) = t.string ++ p.ver v := by
  rw [hp.op t v ht, (Plain.append (op_plain (op_words t).2.2.2) (hp.plain v hv)).clear]

theorem Printer.Inj.op_plain (hp : p.Inj C) (t : OpType) {v : Version} (hv : C v) : Plain (t.string ++ p.ver v) :=
  Plain.append (Verif.op_plain (op_words t).2.2.2) (hp.plain v hv)

theorem digit_not_op {c : Char} (h : IsDigit c) : ¬ IsOpChar c := by
  have : ∀ c ∈ "<>=!~^".toList, ¬ IsDigit c := by decide
  exact fun hc => this c hc h

theorem takeWhile_op {o l : PyStr} {c : Char} (ho : ∀ c ∈ o, IsOpChar c) (hc : IsDigit c) :
    (o ++ c :: l).takeWhile (fun c => decide (IsOpChar c)) = o := by
  rw [List.takeWhile_append_of_pos (fun c hc => by simpa using ho c hc), List.takeWhile_cons_of_neg (by simpa using digit_not_op hc), List.append_nil]

theorem Printer.Inj.op_inj (hp : p.Inj C) {t u : OpType} {v w : Version} (hv : C v) (hw : C w) (h : t.string ++ p.ver v = u.string ++ p.ver w) :
    t.string = u.string ∧ v = w := by
  obtain ⟨c, l, e1, d1⟩ := hp.head v hv
  obtain ⟨d, m, e2, d2⟩ := hp.head w hw
  have h1 : t.string = u.string := by
    rw [← takeWhile_op (l := l) (op_words t).2.2.2 d1, ← takeWhile_op (l := m) (op_words u).2.2.2 d2, ← e1, ← e2, h]
  rw [h1] at h
  exact ⟨h1, hp.inj v w hv hw (List.append_cancel_left h)⟩

/-- The parts of the text of an item, at the comma. -/
def Printer.parts (p : Printer) : Item → List PyStr
  | .point v => [p.ver v]
  | .range ⟨none, none, _, _⟩ => ["*".toList]
  | .range ⟨some a, none, i, _⟩ => [(if i then OpType.greaterOrEqual else .greater).string ++ p.ver a]
  | .range ⟨none, some b, _, j⟩ => [(if j then OpType.lessOrEqual else .less).string ++ p.ver b]
  | .range ⟨some a, some b, i, j⟩ =>
    [(if i then OpType.greaterOrEqual else .greater).string ++ p.ver a, (if j then OpType.lessOrEqual else .less).string ++ p.ver b]

theorem wild_lo (i : Bool) : (if i = true then OpType.greaterOrEqual else .greater).isWildcard = false := by cases i <;> rfl
theorem wild_hi (i : Bool) : (if i = true then OpType.lessOrEqual else .less).isWildcard = false := by cases i <;> rfl

theorem Printer.Inj.clear_item (hp : p.Inj C) {i : Item} (hi : i.Ends C) :
    (∀ c ∈ clearWhitespace (p.item i), c ≠ '|') ∧ clearWhitespace (p.item i) ≠ [] ∧ splitComma (clearWhitespace (p.item i)) = p.parts i := by
  have one : ∀ s : PyStr, Plain s → s ≠ [] → (∀ c ∈ s, c ≠ '|') ∧ s ≠ [] ∧ splitComma s = [s] :=
    fun s hs hne => ⟨hs.no_pipe, hne, splitAt_single _ _ (hs.no (by decide))⟩
  have hne : ∀ v, C v → p.ver v ≠ [] := by
    intro v hv e
    obtain ⟨c, l, h, -⟩ := hp.head v hv
    rw [e] at h
    cases h
  cases i with
  | point v =>
    have hv : C v := hi.1 v rfl
    have := one _ (hp.plain v hv) (hne v hv)
    have e : clearWhitespace (p.item (.point v)) = p.ver v := (hp.plain v hv).clear
    rw [e]
    exact this
  | range r =>
    obtain ⟨mn, mx, x, y⟩ := r
    cases mn with
    | none => cases mx with
      | none =>
        have e : clearWhitespace (p.item (.range ⟨none, none, x, y⟩)) = "*".toList := by
          show clearWhitespace "*".toList = _
          decide +kernel
        rw [e]
        exact ⟨by decide, by decide, by
          show splitComma "*".toList = ["*".toList]
          decide +kernel⟩
      | some b =>
        have hb : C b := hi.2 b rfl
        simp only [Printer.item, Printer.parts, hp.clear_op (wild_hi y) hb]
        exact one _ (hp.op_plain _ hb) (by simp [hne b hb])
    | some a => cases mx with
      | none =>
        have ha : C a := hi.1 a rfl
        simp only [Printer.item, Printer.parts, hp.clear_op (wild_lo x) ha]
        exact one _ (hp.op_plain _ ha) (by simp [hne a ha])
      | some b =>
        have ha : C a := hi.1 a rfl
        have hb : C b := hi.2 b rfl
        have e : ∀ s t, clearWhitespace (join p.comma [s, t]) = clearWhitespace s ++ ',' :: clearWhitespace t := by
          intro s t
          rw [join_cons]
          simp only [List.map_cons, List.map_nil, List.flatten_cons, List.flatten_nil, List.append_nil]
          rw [clear_append, clear_append, hp.comma]
          rfl
        simp only [Printer.item, Printer.parts, e, hp.clear_op (wild_lo x) ha, hp.clear_op (wild_hi y) hb]
        have p1 := hp.op_plain (if x = true then OpType.greaterOrEqual else .greater) ha
        have p2 := hp.op_plain (if y = true then OpType.lessOrEqual else .less) hb
        refine ⟨?_, by simp, ?_⟩
        · intro c hc
          rcases List.mem_append.1 hc with hc | hc
          · exact p1.no_pipe c hc
          · rcases List.mem_cons.1 hc with rfl | hc
            · decide
            · exact p2.no_pipe c hc
        · unfold splitComma
          rw [splitAt_append _ _ _ _ (p1.no (by decide)) (by decide), splitAt_single _ _ (p2.no (by decide))]

/-- The kind of a part. -/
def kind : PyStr → Nat
  | [] => 0
  | c :: _ => if IsDigit c then 1 else if c = '*' then 2 else if c = '<' then 3 else if c = '>' then 4 else 5

theorem Printer.Inj.kind_ver (hp : p.Inj C) {v : Version} (hv : C v) : kind (p.ver v) = 1 := by
  obtain ⟨c, l, h, hc⟩ := hp.head v hv
  rw [h]
  simp [kind, hc]

theorem kind_lo (i : Bool) (s : PyStr) : kind ((if i = true then OpType.greaterOrEqual else .greater).string ++ s) = 4 := by cases i <;> rfl
theorem kind_hi (i : Bool) (s : PyStr) : kind ((if i = true then OpType.lessOrEqual else .less).string ++ s) = 3 := by cases i <;> rfl
theorem kind_ne (s : PyStr) : kind (OpType.notEqual.string ++ s) = 5 := rfl

theorem lo_inj {i j : Bool} (h : (if i = true then OpType.greaterOrEqual else .greater).string = (if j = true then OpType.greaterOrEqual else .greater).string) : i = j := by
  revert i j; decide
theorem hi_inj {i j : Bool} (h : (if i = true then OpType.lessOrEqual else .less).string = (if j = true then OpType.lessOrEqual else .less).string) : i = j := by
  revert i j; decide

theorem Printer.Inj.parts_inj (hp : p.Inj C) {i j : Item} (hi : i.Ends C) (hj : j.Ends C) (ni : i.Normal) (nj : j.Normal)
    (h : p.parts i = p.parts j) : i = j := by
  have hk := congrArg (List.map kind) h
  cases i with
  | point v =>
    have hv : C v := hi.1 v rfl
    cases j with
    | point w =>
      have hw : C w := hj.1 w rfl
      rw [hp.inj v w hv hw (List.cons.inj h).1]
    | range r =>
      obtain ⟨mn, mx, x, y⟩ := r
      cases mn <;> cases mx <;> simp [Printer.parts, hp.kind_ver hv, kind_lo, kind_hi] at hk
      exact absurd hk (by decide)
  | range r =>
    obtain ⟨mn, mx, x, y⟩ := r
    cases j with
    | point w =>
      have hw : C w := hj.1 w rfl
      cases mn <;> cases mx <;> simp [Printer.parts, hp.kind_ver hw, kind_lo, kind_hi] at hk
      exact absurd hk (by decide)
    | range r' =>
      obtain ⟨mn', mx', x', y'⟩ := r'
      obtain ⟨n1, n2, -⟩ := ni
      obtain ⟨m1, m2, -⟩ := nj
      have star : kind "*".toList = 2 := by decide
      cases mn with
      | none =>
        obtain rfl : x = false := n1 rfl
        cases mx with
        | none =>
          obtain rfl : y = false := n2 rfl
          cases mn' with
          | none => cases mx' with
            | none =>
              obtain rfl : x' = false := m1 rfl
              obtain rfl : y' = false := m2 rfl
              rfl
            | some b' => simp only [Printer.parts, List.map_cons, star, kind_hi] at hk; simp at hk
          | some a' => cases mx' <;> simp only [Printer.parts, List.map_cons, star, kind_lo] at hk <;> simp at hk
        | some b =>
          cases mn' with
          | none =>
            obtain rfl : x' = false := m1 rfl
            cases mx' with
            | none => simp [Printer.parts, kind_hi] at hk; exact absurd hk (by decide)
            | some b' =>
              obtain ⟨e1, e2⟩ := hp.op_inj (hi.2 b rfl) (hj.2 b' rfl) (List.cons.inj h).1
              rw [hi_inj e1, e2]
          | some a' => cases mx' <;> simp [Printer.parts, kind_lo, kind_hi] at hk
      | some a =>
        cases mx with
        | none =>
          obtain rfl : y = false := n2 rfl
          cases mn' with
          | none => cases mx' <;> simp [Printer.parts, kind_lo, kind_hi] at hk; exact absurd hk (by decide)
          | some a' => cases mx' with
            | some b' => simp [Printer.parts] at hk
            | none =>
              obtain rfl : y' = false := m2 rfl
              obtain ⟨e1, e2⟩ := hp.op_inj (hi.1 a rfl) (hj.1 a' rfl) (List.cons.inj h).1
              rw [lo_inj e1, e2]
        | some b =>
          cases mn' with
          | none => cases mx' <;> simp [Printer.parts] at hk
          | some a' => cases mx' with
            | none => simp [Printer.parts] at hk
            | some b' =>
              obtain ⟨h1, h2⟩ := List.cons.inj h
              obtain ⟨e1, e2⟩ := hp.op_inj (hi.1 a rfl) (hj.1 a' rfl) h1
              obtain ⟨e3, e4⟩ := hp.op_inj (hi.2 b rfl) (hj.2 b' rfl) (List.cons.inj h2).1
              rw [lo_inj e1, e2, hi_inj e3, e4]

theorem Printer.Inj.item_inj (hp : p.Inj C) {i j : Item} (hi : i.Ends C) (hj : j.Ends C) (ni : i.Normal) (nj : j.Normal)
    (h : clearWhitespace (p.item i) = clearWhitespace (p.item j)) : i = j :=
  hp.parts_inj hi hj ni nj (by rw [← (hp.clear_item hi).2.2, ← (hp.clear_item hj).2.2, h])

theorem Printer.Inj.split_join (hp : p.Inj C) {l : List Item} (hl : AllEnds C l) (hne : l ≠ []) :
    splitPipes (clearWhitespace (join p.pipe (l.map p.item))) = l.map (fun i => clearWhitespace (p.item i)) := by
  cases l with
  | nil => exact absurd rfl hne
  | cons i l =>
    rw [List.map_cons, clear_join hp.pipe, splitPipes_pipes _ _ (hp.clear_item (hl i (by simp))).1]
    · simp [List.map_map, Function.comp_def]
    · intro z hz
      obtain ⟨s, hs, rfl⟩ := List.mem_map.1 hz
      obtain ⟨j, hj, rfl⟩ := List.mem_map.1 hs
      exact (hp.clear_item (hl j (by simp [hj]))).1
    · intro z hz
      obtain ⟨s, hs, rfl⟩ := List.mem_map.1 (List.dropLast_subset _ hz)
      obtain ⟨j, hj, rfl⟩ := List.mem_map.1 hs
      exact (hp.clear_item (hl j (by simp [hj]))).2.1

/-- The items of the text of a set. -/
theorem Printer.Inj.items_inj (hp : p.Inj C) {l m : List Item} (hl : AllEnds C l) (hm : AllEnds C m) (nl : AllNormal l) (nm : AllNormal m)
    (h : l.map (fun i => clearWhitespace (p.item i)) = m.map (fun i => clearWhitespace (p.item i))) : l = m := by
  induction l generalizing m with
  | nil => cases m with
    | nil => rfl
    | cons _ _ => cases h
  | cons i l ih => cases m with
    | nil => cases h
    | cons j m =>
      obtain ⟨h1, h2⟩ := List.cons.inj h
      rw [hp.item_inj (hl i (by simp)) (hm j (by simp)) (nl i (by simp)) (nm j (by simp)) h1,
        ih (fun k hk => hl k (by simp [hk])) (fun k hk => hm k (by simp [hk])) (fun k hk => nl k (by simp [hk])) (fun k hk => nm k (by simp [hk])) h2]

theorem Printer.Inj.kind_item (hp : p.Inj C) {i : Item} (hi : i.Ends C) : kind (clearWhitespace (p.item i)) ≠ 5 := by
  have h := (hp.clear_item hi).2.2
  have : ∀ s : PyStr, ∀ w ws, splitComma s = w :: ws → w ≠ [] → kind s = kind w := by
    intro s w ws h hw
    cases s with
    | nil => cases h; exact absurd rfl hw
    | cons c s =>
      unfold splitComma at h
      rw [splitAt] at h
      split at h
      · cases h; exact absurd rfl hw
      · cases hs : splitAt (fun c => decide (c = ',')) s with
        | nil => rw [hs] at h; cases h; rfl
        | cons a l => rw [hs] at h; cases h; rfl
  cases i with
  | point v =>
    have hv : C v := hi.1 v rfl
    have := this _ _ _ h (fun e => by obtain ⟨c, l, e', -⟩ := hp.head v hv; rw [e] at e'; cases e')
    rw [this, hp.kind_ver hv]
    decide
  | range r =>
    obtain ⟨mn, mx, x, y⟩ := r
    have ne : ∀ t : OpType, t.string ≠ [] := by intro t; cases t <;> decide
    cases mn with
    | none => cases mx with
      | none =>
        show kind (clearWhitespace "*".toList) ≠ 5
        decide +kernel
      | some b => rw [this _ _ _ h (by simp [ne]), kind_hi]; decide
    | some a => cases mx with
      | none => rw [this _ _ _ h (by simp [ne]), kind_lo]; decide
      | some b => rw [this _ _ _ h (by simp [ne]), kind_lo]; decide

theorem Printer.Inj.kind_join (hp : p.Inj C) {l : List Item} (hl : AllEnds C l) (hne : l ≠ []) :
    kind (clearWhitespace (join p.pipe (l.map p.item))) ≠ 5 := by
  cases l with
  | nil => exact absurd rfl hne
  | cons i l =>
    have h := hp.clear_item (hl i (by simp))
    have hk := hp.kind_item (hl i (by simp))
    rw [List.map_cons, clear_join hp.pipe]
    cases hc : clearWhitespace (p.item i) with
    | nil => exact absurd hc h.2.1
    | cons c s =>
      rw [hc] at hk
      have : ∀ (l : List (Bool × PyStr)), ∃ t, pipes (c :: s) l = c :: t := by
        intro l
        cases l with
        | nil => exact ⟨s, rfl⟩
        | cons x l => obtain ⟨d, b⟩ := x; exact ⟨_, rfl⟩
      obtain ⟨t, ht⟩ := this (((l.map p.item)).map (fun s => (true, clearWhitespace s)))
      rw [ht]
      exact hk

/-- Equal texts: equal items, or one and the same version left out. -/
theorem Printer.Inj.text_inj (hp : p.Inj C) {x y : VSet} {s : PyStr} (hx : x.Normal) (hy : y.Normal) (ex : AllEnds C x.extract) (ey : AllEnds C y.extract)
    (sx : p.Text x s) (sy : p.Text y s) :
    x = y ∨ ∃ l m v, x = .union l ∧ y = .union m ∧ (∀ lim, VSet.excludeVersion lim l = .ok (some v)) ∧ ∀ lim, VSet.excludeVersion lim m = .ok (some v) := by
  have text : ∀ {x : VSet}, x.Normal → AllEnds C x.extract → p.Text x s →
      (splitPipes (clearWhitespace s) = x.extract.map (fun i => clearWhitespace (p.item i)) ∧ kind (clearWhitespace s) ≠ 5) ∨
      ∃ l v, x = .union l ∧ (∀ lim, VSet.excludeVersion lim l = .ok (some v)) ∧ C v ∧ clearWhitespace s = OpType.notEqual.string ++ p.ver v := by
    intro x hx ex sx
    rcases sx with ⟨i, rfl, rfl⟩ | ⟨l, rfl, ⟨v, hv, rfl⟩ | ⟨hv, rfl⟩⟩
    · have hi : i.Ends C := ex i (by simp [VSet.extract])
      exact .inl ⟨splitPipes_pipes [] _ (hp.clear_item hi).1 (by simp) (by simp), hp.kind_item hi⟩
    · have hv' : C v := exclude_ends (hv 0) ex
      exact .inr ⟨l, v, rfl, hv, hv', hp.clear_op rfl hv'⟩
    · have hne : l ≠ [] := by
        rintro rfl
        exact absurd hx.1 (by simp)
      exact .inl ⟨hp.split_join ex hne, hp.kind_join ex hne⟩
  have set_ext : ∀ {x y : VSet}, x.Normal → y.Normal → x ≠ .empty → y ≠ .empty → x.extract = y.extract → x = y := by
    intro x y hx hy nx ny h
    cases x with
    | empty => exact absurd rfl nx
    | item i => cases y with
      | empty => exact absurd rfl ny
      | item j => cases h; rfl
      | union m =>
        have := hy.1
        simp only [VSet.extract] at h
        rw [← h] at this
        exact absurd this (by simp)
    | union l => cases y with
      | empty => exact absurd rfl ny
      | item j =>
        have := hx.1
        simp only [VSet.extract] at h
        rw [h] at this
        exact absurd this (by simp)
      | union m => cases h; rfl
  have nx : x ≠ .empty := by rintro rfl; rcases sx with ⟨_, h, -⟩ | ⟨_, h, -⟩ <;> cases h
  have ny : y ≠ .empty := by rintro rfl; rcases sy with ⟨_, h, -⟩ | ⟨_, h, -⟩ <;> cases h
  rcases text hx ex sx with ⟨h1, k1⟩ | ⟨l, v, rfl, h1, c1, k1⟩ <;> rcases text hy ey sy with ⟨h2, k2⟩ | ⟨m, w, rfl, h2, c2, k2⟩
  · exact .inl (set_ext hx hy nx ny (hp.items_inj ex ey hx.extract.1 hy.extract.1 (h1.symm.trans h2)))
  · rw [k2] at k1
    exact absurd (kind_ne _) k1
  · rw [k1] at k2
    exact absurd (kind_ne _) k2
  · obtain ⟨-, rfl⟩ := hp.op_inj c1 c2 (k1.symm.trans k2)
    exact .inr ⟨l, m, v, rfl, rfl, h1, h2⟩

/-! ### the printers of the code -/

theorem shortPrinter_inj : shortPrinter.Inj Version.Canonical where
  comma := by decide
  pipe := by decide
  plain v hv := by
    show Plain v.toShortStr
    rw [text_short hv.valid]
    exact fun c hc => text_specials (good_shortSpelling hv).1 hc
  head v hv := by
    show ∃ c l, v.toShortStr = c :: l ∧ _
    rw [text_short hv.valid]
    exact text_head (good_shortSpelling hv).1 rfl
  op t v ht := by
    have := clear_opShortStr ⟨t, v⟩
    unfold opText at this
    rw [if_neg (by simp [ht])] at this
    exact this
  inj v w hv hw h := C38_short_injective v w hv hw h

theorem longPrinter_inj : longPrinter.Inj (fun v => v.Canonical ∧ NoCandidate v) where
  comma := by decide
  pipe := by decide
  plain v hv := (long_plain hv.1).1
  head v hv := by
    show ∃ c l, v.toStr = c :: l ∧ _
    rw [text_long hv.1.valid]
    exact text_head (good_longSpelling hv.1 hv.2).1 rfl
  op t v ht := by
    have := clear_opStr ⟨t, v⟩
    unfold opText at this
    rw [if_neg (by simp [ht])] at this
    exact this
  inj v w hv hw h := by
    have h : v.toStr = w.toStr := h
    have := parse_long hv.1 hv.2
    rw [h, parse_long hw.1 hw.2] at this
    exact (Except.ok.inj this).symm

end Verif
