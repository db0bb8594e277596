import Verif.Proofs.Loops2
/-!
# Between any two well-formed versions there is another
-/
set_option linter.unusedSimpArgs false

namespace Verif
open scoped Verif

theorem zero_cons_lt {s : PyStr} (h1 : ∀ c ∈ s, '0'.toNat ≤ c.toNat) (h2 : ∃ c ∈ s, '0'.toNat < c.toNat) :
    strKey ('0' :: s) < strKey s := by
  induction s with
  | nil => obtain ⟨c, hc, -⟩ := h2; cases hc
  | cons c s ih =>
    show ('0'.toNat :: strKey (c :: s)) < (c.toNat :: strKey s)
    rw [List.cons_lt_cons_iff]
    rcases Nat.lt_or_eq_of_le (h1 c (by simp)) with h | h
    · exact .inl h
    · right
      have hc : c = '0' := by
        apply Char.ext
        apply UInt32.toNat_inj.1
        exact h.symm
      refine ⟨h, ?_⟩
      rw [hc]
      apply ih (fun d hd => h1 d (by simp [hd]))
      obtain ⟨d, hd, hlt⟩ := h2
      rcases List.mem_cons.1 hd with rfl | hd
      · omega
      · exact ⟨d, hd, hlt⟩

/-- Below any well-formed local part there is another. -/
theorem exists_part_below (y : LocalPart) (hy : y.Wf) : ∃ x : LocalPart, x.Wf ∧ localPartKey x < localPartKey y := by
  cases y with
  | int n =>
    refine ⟨.str ['a'], ⟨by simp, 'a', by simp, by decide⟩, ?_⟩
    unfold localPartKey
    rw [Prod.Lex.toLex_lt_toLex]
    left; exact extKey_negInf_lt_fin _ _
  | str s =>
    refine ⟨.str ('0' :: s), ⟨?_, ?_⟩, ?_⟩
    · intro c hc
      rcases List.mem_cons.1 hc with rfl | hc
      · exact le_rfl
      · exact hy.1 c hc
    · obtain ⟨c, hc, h⟩ := hy.2; exact ⟨c, by simp [hc], h⟩
    · unfold localPartKey
      rw [Prod.Lex.toLex_lt_toLex]
      exact .inr ⟨rfl, zero_cons_lt hy.1 hy.2⟩

theorem exists_append_lt (la : List LocalPart) : ∀ lb : List LocalPart, (∀ p ∈ lb, p.Wf) →
    la.map localPartKey < lb.map localPartKey →
    ∃ x : LocalPart, x.Wf ∧ (la ++ [x]).map localPartKey < lb.map localPartKey := by
  induction la with
  | nil =>
    intro lb hw h
    cases lb with
    | nil => simp at h
    | cons y ys =>
      obtain ⟨x, hx, hxy⟩ := exists_part_below y (hw y (by simp))
      refine ⟨x, hx, ?_⟩
      simp only [List.nil_append, List.map_cons, List.map_nil]
      rw [List.cons_lt_cons_iff]
      exact .inl hxy
  | cons z la ih =>
    intro lb hw h
    cases lb with
    | nil => simp at h
    | cons y ys =>
      simp only [List.map_cons] at h
      rw [List.cons_lt_cons_iff] at h
      rcases h with h | ⟨h1, h2⟩
      · refine ⟨.int 0, trivial, ?_⟩
        simp only [List.cons_append, List.map_cons]
        rw [List.cons_lt_cons_iff]
        exact .inl h
      · obtain ⟨x, hx, hx'⟩ := ih ys (fun p hp => hw p (by simp [hp])) h2
        refine ⟨x, hx, ?_⟩
        simp only [List.cons_append, List.map_cons]
        rw [List.cons_lt_cons_iff]
        exact .inr ⟨h1, hx'⟩

theorem lt_append_one {K : Type} [LinearOrder K] (l : List K) (x : K) : l < l ++ [x] := by
  induction l with
  | nil => simp
  | cons a l ih => rw [List.cons_append, List.cons_lt_cons_iff]; exact .inr ⟨rfl, ih⟩

theorem key_lt_local (a : Version) (l : Option Local) :
    a.key < ({ a with local_ := l } : Version).key ↔
      extKey Local.key (Version.compareLocal a.local_) < extKey Local.key (Version.compareLocal l) := by
  rw [key_lt_same a _ (by rfl) (by rfl)]
  simp

theorem local_change_lt (a b : Version) (h : a.key < b.key) :
    (∀ l, ({ a with local_ := l } : Version).key < b.key) ∨
    (extKey Local.key (Version.compareLocal a.local_) < extKey Local.key (Version.compareLocal b.local_) ∧
      ∀ l, extKey Local.key (Version.compareLocal l) < extKey Local.key (Version.compareLocal b.local_) →
        ({ a with local_ := l } : Version).key < b.key) := by
  rw [key_lt_iff] at h
  simp only [key_lt_iff]
  rcases h with h | ⟨e1, h | ⟨e2, h | ⟨e3, h | ⟨e4, h | ⟨e5, h⟩⟩⟩⟩⟩
  · exact .inl (fun l => .inl h)
  · exact .inl (fun l => .inr ⟨e1, .inl h⟩)
  · exact .inl (fun l => .inr ⟨e1, .inr ⟨e2, .inl h⟩⟩)
  · exact .inl (fun l => .inr ⟨e1, .inr ⟨e2, .inr ⟨e3, .inl h⟩⟩⟩)
  · exact .inl (fun l => .inr ⟨e1, .inr ⟨e2, .inr ⟨e3, .inr ⟨e4, .inl h⟩⟩⟩⟩)
  · exact .inr ⟨h, fun l hl => .inr ⟨e1, .inr ⟨e2, .inr ⟨e3, .inr ⟨e4, .inr ⟨e5, hl⟩⟩⟩⟩⟩⟩

theorem wf_with_local {a : Version} (h : a.Wf) (l : List LocalPart) (hl : l ≠ []) (hw : ∀ p ∈ l, p.Wf) :
    ({ a with local_ := some ⟨l⟩ } : Version).Wf := by
  refine ⟨⟨h.valid.release, h.valid.pre, h.valid.post, h.valid.dev, ?_⟩, ?_⟩
  · rintro l' ⟨rfl⟩; exact hl
  · rintro l' ⟨rfl⟩; exact hw

/-- Between two versions. -/
theorem exists_version_between {a b : Version} (ha : a.Wf) (hb : b.Wf) (h : a.key < b.key) :
    ∃ v : Version, v.Wf ∧ a.key < v.key ∧ v.key < b.key := by
  cases hla : a.local_ with
  | none =>
    rcases local_change_lt a b h with h' | ⟨h1, h2⟩
    · refine ⟨{ a with local_ := some ⟨[.int 0]⟩ }, wf_with_local ha _ (by simp) (by simp [LocalPart.Wf]), ?_, h' _⟩
      rw [key_lt_local, hla]
      exact extKey_negInf_lt_fin _ _
    · rw [hla] at h1
      cases hlb : b.local_ with
      | none => rw [hlb] at h1; exact absurd h1 (lt_irrefl _)
      | some lb =>
        obtain ⟨x, hx, hx'⟩ := exists_append_lt [] lb.parts (hb.local_ lb hlb) (by
          cases hp : lb.parts with
          | nil => exact absurd hp (hb.valid.local_ lb hlb)
          | cons y ys => simp)
        refine ⟨{ a with local_ := some ⟨[x]⟩ }, wf_with_local ha _ (by simp) (by simpa using hx), ?_, ?_⟩
        · rw [key_lt_local, hla]; exact extKey_negInf_lt_fin _ _
        · apply h2
          rw [hlb]
          exact (extKey_fin_lt_fin _ _ _).2 hx'
  | some la =>
    have hwa : ∀ (x : LocalPart), x.Wf → ({ a with local_ := some ⟨la.parts ++ [x]⟩ } : Version).Wf := by
      intro x hx
      refine wf_with_local ha _ (by simp) ?_
      intro p hp
      rcases List.mem_append.1 hp with hp | hp
      · exact ha.local_ la hla p hp
      · simp at hp; subst hp; exact hx
    have hgt : ∀ x, a.key < ({ a with local_ := some ⟨la.parts ++ [x]⟩ } : Version).key := by
      intro x
      rw [key_lt_local, hla]
      refine (extKey_fin_lt_fin _ _ _).2 ?_
      simp only [Local.key, List.map_append, List.map_cons, List.map_nil]
      exact lt_append_one _ _
    rcases local_change_lt a b h with h' | ⟨h1, h2⟩
    · exact ⟨_, hwa (.int 0) trivial, hgt _, h' _⟩
    · rw [hla] at h1
      cases hlb : b.local_ with
      | none =>
        rw [hlb] at h1
        exact absurd h1 (not_lt_of_gt (extKey_negInf_lt_fin _ _))
      | some lb =>
        rw [hlb] at h1
        obtain ⟨x, hx, hx'⟩ := exists_append_lt la.parts lb.parts (hb.local_ lb hlb) ((extKey_fin_lt_fin _ _ _).1 h1)
        refine ⟨_, hwa x hx, hgt x, ?_⟩
        apply h2
        rw [hlb]
        exact (extKey_fin_lt_fin _ _ _).2 hx'

/-- Above any version there is another, with a higher epoch; below, with a lower one (which may be negative). -/
theorem exists_version_beyond {a : Version} (ha : a.Wf) :
    ∃ v w : Version, v.Wf ∧ w.Wf ∧ v.key < a.key ∧ a.key < w.key := by
  refine ⟨{ a with epoch := ⟨a.epoch.value - 1⟩ }, { a with epoch := ⟨a.epoch.value + 1⟩ }, ⟨⟨ha.valid.1, ha.valid.2, ha.valid.3, ha.valid.4, ha.valid.5⟩, ha.2⟩,
    ⟨⟨ha.valid.1, ha.valid.2, ha.valid.3, ha.valid.4, ha.valid.5⟩, ha.2⟩, ?_, ?_⟩
  · rw [key_lt_iff]; left; simp only; omega
  · rw [key_lt_iff]; left; simp only; omega

/-- A cut at a well-formed version or at infinity. -/
def GoodCut (c : Cut) : Prop := c = ⊥ ∨ c = ⊤ ∨ ∃ (v : Version) (b : Bool), v.Wf ∧ c = cutAt v b

theorem exists_wf : ∃ v : Version, v.Wf := ⟨{}, ⟨by simp [Release.default], by simp, by simp, by simp, by simp⟩, by simp⟩

/-- Between any two such cuts there is a version. -/
theorem exists_between {c d : Cut} (hc : GoodCut c) (hd : GoodCut d) (h : c < d) :
    ∃ v : Version, v.Wf ∧ c ≤ cut v ∧ cut v < d := by
  rcases hc with rfl | rfl | ⟨a, x, ha, rfl⟩
  · rcases hd with rfl | rfl | ⟨b, y, hb, rfl⟩
    · exact absurd h (lt_irrefl _)
    · obtain ⟨v, hv⟩ := exists_wf
      exact ⟨v, hv, bot_le, cutAt_lt_top _ _⟩
    · obtain ⟨v, -, hv, -, hlt, -⟩ := exists_version_beyond hb
      exact ⟨v, hv, bot_le, (cutAt_lt _ _ _ _).2 (.inl hlt)⟩
  · exact absurd h not_top_lt
  · cases x with
    | false => exact ⟨a, ha, le_rfl, h⟩
    | true =>
      rcases hd with rfl | rfl | ⟨b, y, hb, rfl⟩
      · exact absurd h not_lt_bot
      · obtain ⟨-, w, -, hw, -, hlt⟩ := exists_version_beyond ha
        exact ⟨w, hw, (cutAt_le _ _ _ _).2 (.inl hlt), cutAt_lt_top _ _⟩
      · have hab : a.key < b.key := by
          rw [cutAt_lt] at h
          rcases h with h | h
          · exact h
          · simp at h
        obtain ⟨v, hv, h1, h2⟩ := exists_version_between ha hb hab
        exact ⟨v, hv, (cutAt_le _ _ _ _).2 (.inl h1), (cutAt_lt _ _ _ _).2 (.inl h2)⟩

theorem Item.Wf.lo {i : Item} (h : i.Wf) : GoodCut i.lo := by
  unfold Item.lo
  cases hm : i.min with
  | none => exact .inl rfl
  | some v => exact .inr (.inr ⟨v, _, h.1 v hm, rfl⟩)

theorem Item.Wf.hi {i : Item} (h : i.Wf) : GoodCut i.hi := by
  unfold Item.hi
  cases hm : i.max with
  | none => exact .inr (.inl rfl)
  | some v => exact .inr (.inr ⟨v, _, h.2 v hm, rfl⟩)

theorem VSet.Wf.extract {s : VSet} (h : s.Wf) : ∀ i ∈ s.extract, i.Wf := by
  cases s with
  | empty => intro i hi; cases hi
  | item j => intro i hi; simp [VSet.extract] at hi; subst hi; exact h
  | union l => exact h

/-- Around an uncovered cut there is an uncovered interval. -/
theorem exists_hole (xs : List Item) (hw : ∀ x ∈ xs, x.Wf) (c : Cut) : ∀ lo hi : Cut, GoodCut lo → GoodCut hi → lo ≤ c → c < hi →
    ¬ Cov xs c → ∃ lo' hi', GoodCut lo' ∧ GoodCut hi' ∧ lo ≤ lo' ∧ lo' ≤ c ∧ c < hi' ∧ hi' ≤ hi ∧
      ∀ x ∈ xs, x.hi ≤ lo' ∨ hi' ≤ x.lo := by
  induction xs with
  | nil => intro lo hi gl gh h1 h2 _; exact ⟨lo, hi, gl, gh, le_rfl, h1, h2, le_rfl, fun x hx => by cases hx⟩
  | cons x xs ih =>
    intro lo hi gl gh h1 h2 hno
    rw [cov_cons, not_or, not_and_or, not_le, not_lt] at hno
    obtain ⟨l, h, g1, g2, g3, g4, g5, g6, g7⟩ := ih (fun y hy => hw y (by simp [hy])) lo hi gl gh h1 h2 hno.2
    rcases hno.1 with hx | hx
    · by_cases hc : x.lo < h
      · refine ⟨l, x.lo, g1, (hw x (by simp)).lo, g3, g4, hx, by order, ?_⟩
        intro y hy
        rcases List.mem_cons.1 hy with rfl | hy
        · exact .inr le_rfl
        · rcases g7 y hy with g | g
          · exact .inl g
          · exact .inr (by order)
      · refine ⟨l, h, g1, g2, g3, g4, g5, g6, ?_⟩
        intro y hy
        rcases List.mem_cons.1 hy with rfl | hy
        · exact .inr (not_lt.1 hc)
        · exact g7 y hy
    · by_cases hc : l < x.hi
      · refine ⟨x.hi, h, (hw x (by simp)).hi, g2, by order, hx, g5, g6, ?_⟩
        intro y hy
        rcases List.mem_cons.1 hy with rfl | hy
        · exact .inl le_rfl
        · rcases g7 y hy with g | g
          · exact .inl (by order)
          · exact .inr g
      · refine ⟨l, h, g1, g2, g3, g4, g5, g6, ?_⟩
        intro y hy
        rcases List.mem_cons.1 hy with rfl | hy
        · exact .inl (not_lt.1 hc)
        · exact g7 y hy

/-- Versions tell sets apart. -/
theorem cov_of_versions {xs ys : List Item} (hwx : ∀ x ∈ xs, x.Wf) (hwy : ∀ y ∈ ys, y.Wf)
    (h : ∀ v : Version, v.Wf → Cov ys (cut v) → Cov xs (cut v)) : ∀ c, Cov ys c → Cov xs c := by
  rintro c ⟨y, hy, h1, h2⟩
  by_contra hno
  obtain ⟨lo, hi, g1, g2, g3, g4, g5, g6, g7⟩ := exists_hole xs hwx c y.lo y.hi (hwy y hy).lo (hwy y hy).hi h1 h2 hno
  obtain ⟨v, hv, v1, v2⟩ := exists_between g1 g2 (by order)
  obtain ⟨x, hx, x1, x2⟩ := h v hv ⟨y, hy, by order, by order⟩
  rcases g7 x hx with g | g <;> order

end Verif
