import Verif.Spec.Regex
/-!
# The backtracking matcher finds exactly the declarative matches
-/

namespace Verif.Re

theorem iterate_sound (a : Re)
    (ih : ∀ s c s' c', (s', c') ∈ run a (s, c) → ∃ w d, s = w ++ s' ∧ c' = d ++ c ∧ Matches a w d) :
    ∀ n s c s' c', (s', c') ∈ iterate (run a) n (s, c) → ∃ w d, s = w ++ s' ∧ c' = d ++ c ∧ Matches (star a) w d := by
  intro n
  induction n with
  | zero =>
    intro s c s' c' h
    simp only [iterate, List.mem_singleton, Prod.mk.injEq] at h
    exact ⟨[], [], by simp [h.1], by simp [h.2], [], by simp, rfl, rfl⟩
  | succ n ihn =>
    intro s c s' c' h
    simp only [iterate, List.mem_append, List.mem_flatMap, List.mem_filter, List.mem_singleton, Prod.mk.injEq] at h
    rcases h with ⟨⟨s1, c1⟩, ⟨h1, hlt⟩, h2⟩ | ⟨rfl, rfl⟩
    · obtain ⟨w1, d1, rfl, rfl, m1⟩ := ih _ _ _ _ h1
      obtain ⟨w2, d2, rfl, rfl, l, hl, rfl, rfl⟩ := ihn _ _ _ _ h2
      refine ⟨w1 ++ (l.map (·.1)).flatten, (l.map (·.2)).reverse.flatten ++ d1, by simp, by simp, (w1, d1) :: l, ?_, by simp, by simp⟩
      intro x hx
      rcases List.mem_cons.1 hx with rfl | hx
      · refine ⟨?_, m1⟩
        rintro rfl
        simp at hlt
      · exact hl x hx
    · exact ⟨[], [], rfl, rfl, [], by simp, rfl, rfl⟩

theorem run_sound : ∀ (r : Re) s c s' c', (s', c') ∈ run r (s, c) → ∃ w d, s = w ++ s' ∧ c' = d ++ c ∧ Matches r w d := by
  intro r
  induction r with
  | chr p =>
    intro s c s' c' h
    cases s with
    | nil => simp [run] at h
    | cons x s =>
      by_cases hp : p x = true
      · simp only [run, hp, if_true, List.mem_singleton, Prod.mk.injEq] at h
        exact ⟨[x], [], by simp [h.1], by simp [h.2], x, rfl, hp, rfl⟩
      · simp [run, hp] at h
  | eps =>
    intro s c s' c' h
    simp only [run, List.mem_singleton, Prod.mk.injEq] at h
    exact ⟨[], [], by simp [h.1], by simp [h.2], rfl, rfl⟩
  | seq a b iha ihb =>
    intro s c s' c' h
    simp only [run, List.mem_flatMap] at h
    obtain ⟨⟨s1, c1⟩, h1, h2⟩ := h
    obtain ⟨w1, d1, rfl, rfl, m1⟩ := iha _ _ _ _ h1
    obtain ⟨w2, d2, rfl, rfl, m2⟩ := ihb _ _ _ _ h2
    exact ⟨w1 ++ w2, d2 ++ d1, by simp, by simp, w1, w2, d1, d2, rfl, rfl, m1, m2⟩
  | alt a b iha ihb =>
    intro s c s' c' h
    simp only [run, List.mem_append] at h
    rcases h with h | h
    · obtain ⟨w, d, e, e', m⟩ := iha _ _ _ _ h
      exact ⟨w, d, e, e', .inl m⟩
    · obtain ⟨w, d, e, e', m⟩ := ihb _ _ _ _ h
      exact ⟨w, d, e, e', .inr m⟩
  | opt a iha =>
    intro s c s' c' h
    simp only [run, List.mem_append, List.mem_singleton, Prod.mk.injEq] at h
    rcases h with h | ⟨rfl, rfl⟩
    · obtain ⟨w, d, e, e', m⟩ := iha _ _ _ _ h
      exact ⟨w, d, e, e', .inl m⟩
    · exact ⟨[], [], rfl, rfl, .inr ⟨rfl, rfl⟩⟩
  | star a iha =>
    intro s c s' c' h
    exact iterate_sound a iha _ _ _ _ _ h
  | group g a iha =>
    intro s c s' c' h
    simp only [run, List.mem_map, Prod.mk.injEq, Prod.exists] at h
    obtain ⟨s1, c1, h1, rfl, rfl⟩ := h
    obtain ⟨w, d, rfl, rfl, m⟩ := iha _ _ _ _ h1
    exact ⟨w, (g, w) :: d, rfl, by simp, d, m, rfl⟩

theorem iterate_complete (a : Re)
    (ih : ∀ w d, Matches a w d → ∀ s c, (s, d ++ c) ∈ run a (w ++ s, c)) :
    ∀ (l : List (PyStr × Caps)), (∀ x ∈ l, x.1 ≠ [] ∧ Matches a x.1 x.2) → ∀ n s c, (l.map (·.1)).flatten.length ≤ n →
      (s, (l.map (·.2)).reverse.flatten ++ c) ∈ iterate (run a) n ((l.map (·.1)).flatten ++ s, c) := by
  intro l
  induction l with
  | nil =>
    intro _ n s c _
    cases n <;> simp [iterate]
  | cons x l ihl =>
    intro hl n s c hn
    obtain ⟨hne, hm⟩ := hl x (by simp)
    have hpos : 0 < x.1.length := List.length_pos_iff.2 hne
    simp only [List.map_cons, List.flatten_cons, List.length_append] at hn
    cases n with
    | zero => omega
    | succ n =>
      simp only [iterate, List.mem_append, List.mem_flatMap, List.mem_filter, Prod.exists]
      refine .inl ⟨(l.map (·.1)).flatten ++ s, x.2 ++ c, ⟨?_, ?_⟩, ?_⟩
      · have := ih _ _ hm ((l.map (·.1)).flatten ++ s) c
        simpa using this
      · simp only [List.map_cons, List.flatten_cons, List.length_append, decide_eq_true_eq]
        omega
      · have := ihl (fun y hy => hl y (List.mem_cons_of_mem _ hy)) n s (x.2 ++ c) (by omega)
        simpa using this

theorem run_complete : ∀ (r : Re) w d, Matches r w d → ∀ s c, (s, d ++ c) ∈ run r (w ++ s, c) := by
  intro r
  induction r with
  | chr p =>
    rintro w d ⟨x, rfl, hp, rfl⟩ s c
    simp [run, hp]
  | eps =>
    rintro w d ⟨rfl, rfl⟩ s c
    simp [run]
  | seq a b iha ihb =>
    rintro w d ⟨w1, w2, c1, c2, rfl, rfl, m1, m2⟩ s c
    simp only [run, List.mem_flatMap]
    refine ⟨(w2 ++ s, c1 ++ c), ?_, ?_⟩
    · have := iha _ _ m1 (w2 ++ s) c
      simpa using this
    · have := ihb _ _ m2 s (c1 ++ c)
      simpa using this
  | alt a b iha ihb =>
    rintro w d (m | m) s c
    · exact List.mem_append_left _ (iha _ _ m s c)
    · exact List.mem_append_right _ (ihb _ _ m s c)
  | opt a iha =>
    rintro w d (m | ⟨rfl, rfl⟩) s c
    · exact List.mem_append_left _ (iha _ _ m s c)
    · simp [run]
  | star a iha =>
    rintro w d ⟨l, hl, rfl, rfl⟩ s c
    exact iterate_complete a iha l hl _ s c (by simp)
  | group g a iha =>
    rintro w d ⟨c', m, rfl⟩ s c
    simp only [run, List.mem_map, Prod.mk.injEq, Prod.exists]
    refine ⟨s, c' ++ c, iha _ _ m s c, rfl, ?_⟩
    simp

/-- The matcher lists exactly the declarative matches of prefixes. -/
theorem mem_run (r : Re) (s : PyStr) (c : Caps) (s' : PyStr) (c' : Caps) :
    (s', c') ∈ run r (s, c) ↔ ∃ w d, s = w ++ s' ∧ c' = d ++ c ∧ Matches r w d := by
  constructor
  · exact run_sound r s c s' c'
  · rintro ⟨w, d, rfl, rfl, m⟩
    exact run_complete r w d m s' c

/-- `fullmatch` returns `None` iff the pattern cannot match the whole string. -/
theorem fullmatch_none (r : Re) (s : PyStr) : fullmatch r s = none ↔ ¬ ∃ c, Matches r s c := by
  unfold fullmatch
  rw [Option.map_eq_none_iff, List.find?_eq_none]
  constructor
  · rintro h ⟨c, m⟩
    have := run_complete r s c m [] []
    simp only [List.append_nil] at this
    exact h _ this (by simp)
  · rintro h ⟨s', c'⟩ hm he
    simp only [List.isEmpty_iff] at he
    subst he
    obtain ⟨w, d, rfl, rfl, m⟩ := run_sound r _ _ _ _ hm
    simp only [List.append_nil] at h
    exact h ⟨d, m⟩

/-- What `fullmatch` returns is a match of the whole string. -/
theorem fullmatch_matches {r : Re} {s : PyStr} {c : Caps} (h : fullmatch r s = some c) : Matches r s c := by
  unfold fullmatch at h
  rw [Option.map_eq_some_iff] at h
  obtain ⟨⟨s', c'⟩, hf, rfl⟩ := h
  have hm := List.mem_of_find?_eq_some hf
  have he := List.find?_some hf
  simp only [List.isEmpty_iff] at he
  subst he
  obtain ⟨w, d, rfl, rfl, m⟩ := run_sound r _ _ _ _ hm
  simpa using m

/-- `fullmatch` returns a match if there is one. -/
theorem fullmatch_some {r : Re} {s : PyStr} {c : Caps} (h : Matches r s c) : ∃ c', fullmatch r s = some c' := by
  cases hf : fullmatch r s with
  | some c' => exact ⟨c', rfl⟩
  | none => exact absurd ⟨c, h⟩ ((fullmatch_none r s).1 hf)

/-- If there is only one match, `fullmatch` returns it. -/
theorem fullmatch_unique {r : Re} {s : PyStr} {c : Caps} (h : Matches r s c) (hu : ∀ c', Matches r s c' → c' = c) :
    fullmatch r s = some c := by
  obtain ⟨c', hc'⟩ := fullmatch_some h
  rw [hc', hu c' (fullmatch_matches hc')]

/-! ### characters, groups and first characters -/

/-- Some part of the pattern matches the character. -/
def allows : Re → Char → Bool
  | chr p, x => p x
  | eps, _ => false
  | seq a b, x => allows a x || allows b x
  | alt a b, x => allows a x || allows b x
  | opt a, x => allows a x
  | star a, x => allows a x
  | group _ a, x => allows a x

theorem allows_of_mem : ∀ (r : Re) w c, Matches r w c → ∀ x ∈ w, allows r x = true := by
  intro r
  induction r with
  | chr p =>
    rintro w c ⟨y, rfl, hp, rfl⟩ x hx
    rw [List.mem_singleton] at hx
    exact hx ▸ hp
  | eps =>
    rintro w c ⟨rfl, rfl⟩ x hx
    simp at hx
  | seq a b iha ihb =>
    rintro w c ⟨w1, w2, c1, c2, rfl, rfl, m1, m2⟩ x hx
    rw [allows, Bool.or_eq_true]
    rcases List.mem_append.1 hx with hx | hx
    · exact .inl (iha _ _ m1 x hx)
    · exact .inr (ihb _ _ m2 x hx)
  | alt a b iha ihb =>
    rintro w c (m | m) x hx <;> rw [allows, Bool.or_eq_true]
    · exact .inl (iha _ _ m x hx)
    · exact .inr (ihb _ _ m x hx)
  | opt a iha =>
    rintro w c (m | ⟨rfl, rfl⟩) x hx
    · exact iha _ _ m x hx
    · simp at hx
  | star a iha =>
    rintro w c ⟨l, hl, rfl, rfl⟩ x hx
    simp only [List.mem_flatten, List.mem_map] at hx
    obtain ⟨_, ⟨y, hy, rfl⟩, hxy⟩ := hx
    exact iha _ _ (hl y hy).2 x hxy
  | group g a iha =>
    rintro w c ⟨c', m, rfl⟩ x hx
    exact iha _ _ m x hx

/-- The named groups of a pattern. -/
def groups : Re → List Grp
  | chr _ => []
  | eps => []
  | seq a b => groups a ++ groups b
  | alt a b => groups a ++ groups b
  | opt a => groups a
  | star a => groups a
  | group g a => g :: groups a

theorem groups_of_mem : ∀ (r : Re) w c, Matches r w c → ∀ x ∈ c, x.1 ∈ groups r := by
  intro r
  induction r with
  | chr p =>
    rintro w c ⟨y, rfl, hp, rfl⟩ x hx
    simp at hx
  | eps =>
    rintro w c ⟨rfl, rfl⟩ x hx
    simp at hx
  | seq a b iha ihb =>
    rintro w c ⟨w1, w2, c1, c2, rfl, rfl, m1, m2⟩ x hx
    rw [groups, List.mem_append]
    rcases List.mem_append.1 hx with hx | hx
    · exact .inr (ihb _ _ m2 x hx)
    · exact .inl (iha _ _ m1 x hx)
  | alt a b iha ihb =>
    rintro w c (m | m) x hx <;> rw [groups, List.mem_append]
    · exact .inl (iha _ _ m x hx)
    · exact .inr (ihb _ _ m x hx)
  | opt a iha =>
    rintro w c (m | ⟨rfl, rfl⟩) x hx
    · exact iha _ _ m x hx
    · simp at hx
  | star a iha =>
    rintro w c ⟨l, hl, rfl, rfl⟩ x hx
    simp only [List.mem_flatten, List.mem_reverse, List.mem_map] at hx
    obtain ⟨_, ⟨y, hy, rfl⟩, hxy⟩ := hx
    exact iha _ _ (hl y hy).2 x hxy
  | group g a iha =>
    rintro w c ⟨c', m, rfl⟩ x hx
    rw [groups]
    rcases List.mem_cons.1 hx with rfl | hx
    · exact List.mem_cons_self
    · exact List.mem_cons_of_mem _ (iha _ _ m x hx)

theorem get_none {g : Grp} {r : Re} {w : PyStr} {c : Caps} (m : Matches r w c) (hg : g ∉ groups r) : get g c = none := by
  unfold get
  rw [Option.map_eq_none_iff, List.find?_eq_none]
  intro x hx he
  simp only [decide_eq_true_eq] at he
  exact hg (he ▸ groups_of_mem r w c m x hx)

theorem get_append (g : Grp) (a b : Caps) : get g (a ++ b) = (get g a).or (get g b) := by
  unfold get
  rw [List.find?_append]
  cases a.find? _ <;> rfl

theorem get_cons (g h : Grp) (w : PyStr) (c : Caps) : get g ((h, w) :: c) = if h = g then some w else get g c := by
  unfold get
  by_cases e : h = g
  · simp [e]
  · simp [List.find?_cons, e]

@[simp] theorem get_nil (g : Grp) : get g [] = none := rfl

/-- Whether the pattern matches the empty string. -/
def nullable : Re → Bool
  | chr _ => false
  | eps => true
  | seq a b => nullable a && nullable b
  | alt a b => nullable a || nullable b
  | opt _ => true
  | star _ => true
  | group _ a => nullable a

/-- Whether a match can start with the character. -/
def first : Re → Char → Bool
  | chr p, x => p x
  | eps, _ => false
  | seq a b, x => first a x || (nullable a && first b x)
  | alt a b, x => first a x || first b x
  | opt a, x => first a x
  | star a, x => first a x
  | group _ a, x => first a x

theorem nullable_of_nil : ∀ (r : Re) c, Matches r [] c → nullable r = true := by
  intro r
  induction r with
  | chr p => rintro c ⟨y, h, -⟩; simp at h
  | eps => intros; rfl
  | seq a b iha ihb =>
    rintro c ⟨w1, w2, c1, c2, h, rfl, m1, m2⟩
    obtain ⟨rfl, rfl⟩ := List.append_eq_nil_iff.1 h.symm
    rw [nullable, iha _ m1, ihb _ m2]
    rfl
  | alt a b iha ihb =>
    rintro c (m | m) <;> rw [nullable, Bool.or_eq_true]
    · exact .inl (iha _ m)
    · exact .inr (ihb _ m)
  | opt a iha => intros; rfl
  | star a iha => intros; rfl
  | group g a iha =>
    rintro c ⟨c', m, rfl⟩
    exact iha _ m

theorem first_of_cons : ∀ (r : Re) x w c, Matches r (x :: w) c → first r x = true := by
  intro r
  induction r with
  | chr p =>
    rintro x w c ⟨y, h, hp, rfl⟩
    simp only [List.cons.injEq] at h
    rw [first, h.1, hp]
  | eps => rintro x w c ⟨h, -⟩; simp at h
  | seq a b iha ihb =>
    rintro x w c ⟨w1, w2, c1, c2, h, rfl, m1, m2⟩
    rw [first, Bool.or_eq_true, Bool.and_eq_true]
    cases w1 with
    | nil =>
      rw [List.nil_append] at h
      subst h
      exact .inr ⟨nullable_of_nil _ _ m1, ihb _ _ _ m2⟩
    | cons y w1 =>
      simp only [List.cons_append, List.cons.injEq] at h
      exact .inl (h.1 ▸ iha _ _ _ m1)
  | alt a b iha ihb =>
    rintro x w c (m | m) <;> rw [first, Bool.or_eq_true]
    · exact .inl (iha _ _ _ m)
    · exact .inr (ihb _ _ _ m)
  | opt a iha =>
    rintro x w c (m | ⟨h, -⟩)
    · exact iha _ _ _ m
    · simp at h
  | star a iha =>
    rintro x w c ⟨l, hl, h, -⟩
    cases l with
    | nil => simp at h
    | cons y l =>
      obtain ⟨hne, m⟩ := hl y (by simp)
      obtain ⟨y1, y2⟩ := y
      cases y1 with
      | nil => exact absurd rfl hne
      | cons z y1 =>
        simp only [List.map_cons, List.flatten_cons, List.cons_append, List.cons.injEq] at h
        exact h.1 ▸ iha _ _ _ m
  | group g a iha =>
    rintro x w c ⟨c', m, rfl⟩
    exact iha _ _ _ m

end Verif.Re
