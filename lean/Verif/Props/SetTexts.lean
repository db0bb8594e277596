import Verif.Props.PublicEdits
import Verif.Props.SetReading
/-!
# C126: how requirements are written as version sets

A requirement on public versions of PEP 440 is read as a version set, and the set is written. What is written is stated on the plain
records of `Props/FromPublic.lean` and `Props/PublicEdits.lean`, without the model.
-/

namespace Verif
open scoped Verif

/-- From `a`, below `b`. -/
def fromBelow (a b : Pub) : PyStr := ">=".toList ++ a.text ++ ",<".toList ++ b.text

/-- The final release with the numbers of `a`, of `a` itself if that is stable. -/
def Pub.settled (a : Pub) : Pub := if a.pre = none ∧ a.dev = none then a else { epoch := a.epoch, numbers := a.numbers }

/-- `a` with one number more, a zero. -/
def Pub.withZero (a : Pub) : Pub := { a with numbers := a.numbers ++ [0] }

/-- The string of the version set that the requirement is read as. -/
def Ask.setText (q : Ask) : PyStr :=
  let a := q.version
  let b := a.withZero.bump (a.numbers.length - 1)
  match q.sign with
  | .caret => fromBelow a (Edit.breaking.on a)
  | .tilde => fromBelow a (if 1 < a.numbers.length then a.bump 1 else a.bump 0)
  | .tildeEqual => fromBelow a (a.settled.bump (a.numbers.length - 2))
  | .doubleEqual | .equal => a.text
  | .notEqual => "!=".toList ++ a.text
  | .less => "<".toList ++ a.text
  | .lessOrEqual => "<=".toList ++ a.text
  | .greater => ">".toList ++ a.text
  | .greaterOrEqual => ">=".toList ++ a.text
  | .under | .underSingle => fromBelow a.withZero b
  | .notUnder => "<".toList ++ a.withZero.text ++ "||>=".toList ++ b.text

namespace SetTexts
open FromPublic

def outside (v w : Version) (x y : Bool) : List Item := [.range ⟨none, some v, false, x⟩, .range ⟨some w, none, !y, false⟩]

theorem outside_cov (v w : Version) (x y : Bool) (c : Cut) :
    (VSet.union (outside v w x y)).Cov c ↔ c ≠ ⊤ ∧ ¬ (cutAt v x ≤ c ∧ c < cutAt w y) := by
  rw [VSet.Cov, VSet.extract, outside, cov_cons, cov_cons, cov_nil, or_false]
  simp only [Item.lo, Item.hi, loOf, hiOf, Item.min, Item.max, Item.includeMin, Item.includeMax, Item.fields, bot_le, true_and, Bool.not_not]
  constructor
  · rintro (h1 | ⟨h1, h2⟩)
    · exact ⟨(h1.trans_le le_top).ne, fun h' => not_lt_of_ge h'.1 h1⟩
    · exact ⟨h2.ne, fun h' => not_lt_of_ge h1 h'.2⟩
  · rintro ⟨h1, h2⟩
    by_cases h3 : c < cutAt v x
    · exact .inl h3
    · exact .inr ⟨not_lt.1 fun h4 => h2 ⟨not_lt.1 h3, h4⟩, lt_of_le_of_ne le_top h1⟩

theorem outside_normal (v w : Version) (x y : Bool) (h : cutAt v x < cutAt w y) : (VSet.union (outside v w x y)).Normal := by
  have hb : Item.Before (.range ⟨none, some v, false, x⟩) (.range ⟨some w, none, !y, false⟩) := by
    refine ⟨v, w, rfl, rfl, ?_⟩
    rcases (cutAt_lt _ _ _ _).1 h with h | ⟨h1, h2, h3⟩
    · exact .inl ((vlt_iff _ _).2 h)
    · exact .inr ⟨(veq_iff _ _).2 h1, h2, by simp [Item.includeMin, Item.fields, h3]⟩
  refine ⟨by simp [outside], ?_, ?_⟩
  · intro i hi
    simp only [outside, List.mem_cons, List.not_mem_nil, or_false] at hi
    rcases hi with rfl | rfl <;> simp [Item.Normal]
  · simpa [outside] using hb

theorem item_exact {P : Version → Prop} (hP : ∀ v w, P v → P w → v.key = w.key → v = w) {i : Item} {r : VRange} (hi : i.Ends P)
    (hr : (Item.range r).Ends P) (hc : r.includeMin = false ∨ r.includeMax = false) (h : i.eq (.range r) = true) : i = .range r := by
  obtain ⟨mn, mx, x, y⟩ := r
  cases i with
  | point v =>
    simp only [Item.eq, Bool.and_eq_true, beq_iff_eq] at h
    obtain ⟨⟨-, h1⟩, h2⟩ := h
    simp only [Item.includeMin, Item.includeMax, Item.fields] at h1 h2
    rcases hc with hc | hc <;> simp_all
  | range s =>
    obtain ⟨mn', mx', x', y'⟩ := s
    simp only [Item.eq, Bool.and_eq_true, beq_iff_eq] at h
    obtain ⟨⟨⟨h1, h2⟩, h3⟩, h4⟩ := h
    simp only [Item.includeMin, Item.includeMax, Item.fields] at h3 h4
    subst h3 h4
    have e : ∀ a b : Option Version, (∀ v, a = some v → P v) → (∀ v, b = some v → P v) → optEq a b = true → a = b := by
      intro a b ha hb hab
      cases a with
      | none => cases b with
        | none => rfl
        | some b => cases hab
      | some a => cases b with
        | none => cases hab
        | some b => rw [hP a b (ha a rfl) (hb b rfl) ((optEq_some _ _).1 hab)]
    rw [e mn' mn hi.1 hr.1 h1, e mx' mx hi.2 hr.2 h2]

theorem outside_exact {s : VSet} {v w : Version} {x y : Bool} (h : cutAt v x < cutAt w y) (hk : v.key = w.key → v = w) (hn : s.Normal)
    (hc : ∀ c, s.Cov c ↔ c ≠ ⊤ ∧ ¬ (cutAt v x ≤ c ∧ c < cutAt w y)) (he : AllEnds (fun u => u = v ∨ u = w) s.extract) :
    s = .union (outside v w x y) := by
  have heq : s.eq (.union (outside v w x y)) = true :=
    (eq_iff_cov hn (outside_normal v w x y h)).2 fun c => (hc c).trans (outside_cov v w x y c).symm
  have hP : ∀ a b : Version, (a = v ∨ a = w) → (b = v ∨ b = w) → a.key = b.key → a = b := by
    rintro a b (rfl | rfl) (rfl | rfl) e
    · rfl
    · exact hk e
    · exact (hk e.symm).symm
    · rfl
  cases s with
  | empty => cases heq
  | item i => cases heq
  | union l =>
    simp only [VSet.eq, outside, Bool.and_eq_true, beq_iff_eq] at heq
    obtain ⟨hl, hz⟩ := heq
    obtain ⟨a, b, rfl⟩ : ∃ a b, l = [a, b] := List.length_eq_two.1 hl
    · simp only [List.zip_cons_cons, List.zip_nil_right, List.all_cons, List.all_nil, Bool.and_true, Bool.and_eq_true] at hz
      have h1 := item_exact hP (he a (by simp [VSet.extract])) (r := ⟨none, some v, false, x⟩)
        ⟨by rintro _ ⟨⟩, by rintro _ ⟨⟩; exact .inl rfl⟩ (.inl rfl) hz.1
      have h2 := item_exact hP (he b (by simp [VSet.extract])) (r := ⟨some w, none, !y, false⟩)
        ⟨by rintro _ ⟨⟩; exact .inr rfl, by rintro _ ⟨⟩⟩ (.inr rfl) hz.2
      rw [h1, h2]; rfl

theorem ne_set (lim : Nat) (v : Version) : v.translateNotEqual lim = .ok (.union (outside v v false true)) := by
  obtain ⟨items, h1, h2, h3⟩ := complement_point v
  have hlt : cutAt v false < cutAt v true := (cutAt_lt _ _ _ _).2 (.inr ⟨rfl, rfl, rfl⟩)
  have he : AllEnds (fun u => u = v ∨ u = v) (VSet.union items).extract := complement_ends (a := .item (.point v)) (by
    intro i hi
    simp only [VSet.extract, List.mem_singleton] at hi
    subst hi
    exact ⟨by rintro _ ⟨⟩; exact .inl rfl, by rintro _ ⟨⟩; exact .inl rfl⟩) (h1 0)
  have := outside_exact hlt (fun _ => rfl) h2 (fun c => by
    rw [h3 c, point_cov, lt_after_iff]
    exact and_congr_right fun _ => not_congr ⟨fun h => h ▸ ⟨le_rfl, le_rfl⟩, fun h => le_antisymm h.2 h.1⟩) he
  unfold Version.translateNotEqual Version.translateEqual
  rw [h1]
  show Except.ok (VSet.union items) = _
  rw [this]

theorem notUnder_set {v w : Version} (h : v.key < w.key) (lim : Nat) :
    (window v w).complement lim = .ok (.union (outside v w false false)) := by
  obtain ⟨items, h1, h2, h3⟩ := complement_window h
  have hlt : cutAt v false < cutAt w false := (cutAt_lt _ _ _ _).2 (.inl h)
  have he : AllEnds (fun u => u = v ∨ u = w) (VSet.union items).extract := complement_ends (a := window v w) (by
    intro i hi
    simp only [window, VSet.extract, List.mem_singleton] at hi
    subst hi
    exact ⟨by rintro _ ⟨⟩; exact .inl rfl, by rintro _ ⟨⟩; exact .inr rfl⟩) (h1 0)
  rw [h1, outside_exact hlt (fun e => absurd e h.ne) h2 (fun c => by rw [h3 c, window_cov]; rfl) he]

theorem outside_complement {v w : Version} {x y : Bool} (h : cutAt v x < cutAt w y) :
    ∃ z, (∀ lim, (VSet.union (outside v w x y)).complement lim = .ok z) ∧ z.Normal ∧ (∀ c, z.Cov c ↔ cutAt v x ≤ c ∧ c < cutAt w y) ∧
      AllEnds (fun u => u = v ∨ u = w) z.extract := by
  obtain ⟨z, z1, z2, z3⟩ := complement_spec (outside_normal v w x y h)
  refine ⟨z, z1, z2, fun c => ?_, ?_⟩
  · rw [z3 c, outside_cov v w x y]
    constructor
    · rintro ⟨h1, h2⟩
      by_contra h3
      exact h2 ⟨h1, h3⟩
    · intro h1
      exact ⟨(h1.2.trans_le le_top).ne, fun h2 => h2.2 h1⟩
  · refine complement_ends (a := .union (outside v w x y)) ?_ (z1 0)
    intro i hi
    simp only [outside, VSet.extract, List.mem_cons, List.not_mem_nil, or_false] at hi
    rcases hi with rfl | rfl
    · exact ⟨by rintro _ ⟨⟩, by rintro _ ⟨⟩; exact .inl rfl⟩
    · exact ⟨by rintro _ ⟨⟩; exact .inr rfl, by rintro _ ⟨⟩⟩

theorem ne_text (v : Version) : shortPrinter.Text (.union (outside v v false true)) (Operator.toShortStr ⟨.notEqual, v⟩) := by
  have hlt : cutAt v false < cutAt v true := (cutAt_lt _ _ _ _).2 (.inr ⟨rfl, rfl, rfl⟩)
  obtain ⟨z, z1, z2, z3, z4⟩ := outside_complement hlt
  have heq : z.eq (.item (.point v)) = true := (eq_iff_cov (b := .item (.point v)) z2 (point_normal v)).2 fun c => by
    rw [z3 c, point_cov, lt_after_iff]
    exact ⟨fun h => le_antisymm h.2 h.1, fun h => h ▸ ⟨le_rfl, le_rfl⟩⟩
  refine .inr ⟨_, rfl, .inl ⟨v, fun lim => ?_, rfl⟩⟩
  unfold VSet.excludeVersion
  rw [z1]
  cases z with
  | empty => cases heq
  | union l => cases heq
  | item i =>
    cases i with
    | point u =>
      have := (z4 (.point u) (by simp [VSet.extract])).1 u rfl
      rcases this with rfl | rfl <;> rfl
    | range r =>
      exfalso
      obtain ⟨mn, mx, x, y⟩ := r
      simp only [VSet.eq, Item.eq, Bool.and_eq_true, Item.min, Item.max] at heq
      cases mn with
      | none => cases heq.1.1.1
      | some a => cases mx with
        | none => cases heq.1.1.2
        | some b =>
          have h1 := (optEq_some _ _).1 heq.1.1.1
          have h2 := (optEq_some _ _).1 heq.1.1.2
          have h3 := (vlt_iff _ _).1 (z2.2.2 a b rfl rfl)
          rw [h1, h2] at h3
          exact lt_irrefl _ h3

theorem notUnder_text {v w : Version} (h : v.key < w.key) : shortPrinter.Text (.union (outside v w false false))
    (join "||".toList [Operator.toShortStr ⟨.less, v⟩, Operator.toShortStr ⟨.greaterOrEqual, w⟩]) := by
  have hlt : cutAt v false < cutAt w false := (cutAt_lt _ _ _ _).2 (.inl h)
  obtain ⟨z, z1, z2, z3, z4⟩ := outside_complement hlt
  have heq : z.eq (window v w) = true := (eq_iff_cov z2 (window_normal h)).2 fun c => by rw [z3 c, window_cov]; rfl
  refine .inr ⟨_, rfl, .inr ⟨fun lim => ?_, rfl⟩⟩
  unfold VSet.excludeVersion
  rw [z1]
  cases z with
  | empty => cases heq
  | union l => cases heq
  | item i =>
    cases i with
    | range r => rfl
    | point u =>
      simp [VSet.eq, window, Item.eq, Item.includeMin, Item.includeMax, Item.fields] at heq

theorem op_short (t : OpType) (ht : t.isWildcard = false) (a : Pub) : Operator.toShortStr ⟨t, ver a⟩ = t.string ++ a.text := by
  simp [Operator.toShortStr, ht, ver_short, join, List.intercalate]

theorem window_text (a b : Pub) : shortPrinter.Text (window (ver a) (ver b)) (fromBelow a b) := by
  refine .inl ⟨_, rfl, ?_⟩
  show _ = join ",".toList [Operator.toShortStr ⟨.greaterOrEqual, ver a⟩, Operator.toShortStr ⟨.less, ver b⟩]
  rw [op_short _ (by decide), op_short _ (by decide)]
  simp [fromBelow, join, List.intercalate, show OpType.string .greaterOrEqual = ">=".toList from by decide +kernel,
    show OpType.string .less = "<".toList from by decide +kernel]

theorem window_of {v w : Version} {z : VSet} (h : (do .ok (VSet.item (← Item.mkRange (some v) (some w) true false)) : Except PyErr VSet) = .ok z) :
    z = window v w := by
  rw [mkRange_window] at h
  split at h
  · cases h
  · cases h; rfl

theorem window_key {v w : Version} (h : (window v w).Normal) : v.key < w.key := (vlt_iff _ _).1 (h.2.2 v w rfl rfl)

theorem parse_operator (lim : Nat) (q : Ask) (h : q.WellFormed) : VSet.parse lim q.text = (operator q).toSet lim := by
  unfold VSet.parse
  rw [ask_parse q h]
  show (Specifier.one (operator q)).toSet lim = _
  rw [Specifier.toSet]

theorem bump_ne (a : Pub) (i : Nat) (h : a.numbers ≠ []) : (a.bump i).numbers ≠ [] := (PublicEdits.edit_ok a h (.at_ i)).2

theorem window_ends (a b : Pub) : AllEnds (fun v => v.local_ = none) (window (ver a) (ver b)).extract := by
  intro i hi
  simp only [window, VSet.extract, List.mem_singleton] at hi
  subst hi
  exact ⟨by rintro _ ⟨⟩; rfl, by rintro _ ⟨⟩; rfl⟩

theorem outside_ends (a b : Pub) (x y : Bool) : AllEnds (fun v => v.local_ = none) (VSet.union (outside (ver a) (ver b) x y)).extract := by
  intro i hi
  simp only [outside, VSet.extract, List.mem_cons, List.not_mem_nil, or_false] at hi
  rcases hi with rfl | rfl
  · exact ⟨by rintro _ ⟨⟩, by rintro _ ⟨⟩; rfl⟩
  · exact ⟨by rintro _ ⟨⟩; rfl, by rintro _ ⟨⟩⟩

theorem item_ends {i : Item} (h1 : ∀ v, i.min = some v → v.local_ = none) (h2 : ∀ v, i.max = some v → v.local_ = none) :
    AllEnds (fun v => v.local_ = none) (VSet.item i).extract := by
  intro j hj
  simp only [VSet.extract, List.mem_singleton] at hj
  subst hj
  exact ⟨h1, h2⟩

theorem set_printed (lim : Nat) (q : Ask) (h : q.WellFormed) {z : VSet} (hz : VSet.parse lim q.text = .ok z) :
    shortPrinter.Text z q.setText ∧ AllEnds (fun v => v.local_ = none) z.extract := by
  rw [parse_operator lim q h] at hz
  obtain ⟨s, a⟩ := q
  obtain ⟨h1, h2, h3⟩ := h
  simp only at h1 h2 h3
  have hlen : 0 < a.numbers.length := List.length_pos_iff.2 h1
  have wild : a.pre = none → a.post = none → a.dev = none →
      (ver a.withZero).nextWildcardBreaking = .ok (some (ver (a.withZero.bump (a.numbers.length - 1)))) := by
    intro e1 e2 e3
    unfold Version.nextWildcardBreaking
    have hi : (ver a.withZero).lastIndex = a.numbers.length := by
      have := ver_precision a.withZero
      simp only [Version.lastIndex, Release.lastIndex]
      rw [show (ver a.withZero).release.precision = _ from this]; simp [Pub.withZero]
    have hs : ((ver a.withZero).isStable && !(ver a.withZero).isPostRelease) = true := by
      simp [Version.isStable, Version.isUnstable, Version.isPostRelease, Version.isPreRelease, Version.isDevRelease, ver, Pub.withZero, e1, e2, e3]
    simp only [hi, hs, if_true]
    rw [if_neg (by omega)]
    have := PublicEdits.bump_ok a.withZero (by simp [Pub.withZero]) (a.numbers.length - 1)
    rw [show ((a.numbers.length : Int) - 1) = ((a.numbers.length - 1 : Nat) : Int) by omega]
    simp only [this, bind, Except.bind]
  cases s with
  | caret =>
    change (ver a).translateCaret = _ at hz
    unfold Version.translateCaret Version.nextCaretBreaking at hz
    rw [show (ver a).nextBreaking = _ from (PublicEdits.edit_ok a h1 .breaking).1] at hz
    rw [window_of hz]
    exact ⟨window_text _ _, window_ends _ _⟩
  | tilde =>
    change (ver a).translateTilde = _ at hz
    unfold Version.translateTilde at hz
    have : (ver a).nextTildeBreaking = .ok (ver (if 1 < a.numbers.length then a.bump 1 else a.bump 0)) := by
      have hp := ver_precision a
      have e : (ver a).hasAt 1 = true ↔ 1 < (ver a).release.precision := hasAt_iff _ 1
      unfold Version.nextTildeBreaking
      by_cases hl : 1 < a.numbers.length
      · rw [if_pos hl, if_pos (e.2 (by rw [hp]; exact hl))]
        exact (PublicEdits.edit_ok a h1 .minor).1
      · rw [if_neg hl, if_neg fun h => hl (by have := e.1 h; rwa [hp] at this)]
        exact (PublicEdits.edit_ok a h1 .major).1
    rw [this] at hz
    rw [window_of hz]
    exact ⟨window_text _ _, window_ends _ _⟩
  | tildeEqual =>
    change (ver a).translateTildeEqual = _ at hz
    unfold Version.translateTildeEqual at hz
    have h2 := h2 rfl
    have : (ver a).nextTildeEqualBreaking = .ok (ver (a.settled.bump (a.numbers.length - 2))) := by
      have hs : (ver a).toStable = ver a.settled := Except.ok.inj (PublicEdits.edit_ok a h1 .stable).1
      have hi : (ver a).lastIndex = ((a.numbers.length - 1 : Nat) : Int) := by
        have := ver_precision a
        simp only [Version.lastIndex, Release.lastIndex]
        rw [show (ver a).release.precision = _ from this]; omega
      unfold Version.nextTildeEqualBreaking
      simp only [hi]
      rw [if_pos (by omega), hs, ← PublicEdits.bump_ok a.settled (PublicEdits.edit_ok a h1 .stable).2]
      congr 1; omega
    rw [this] at hz
    rw [window_of hz]
    exact ⟨window_text _ _, window_ends _ _⟩
  | doubleEqual => cases hz; exact ⟨.inl ⟨_, rfl, (ver_short a).symm⟩, item_ends (by rintro _ ⟨⟩; rfl) (by rintro _ ⟨⟩; rfl)⟩
  | equal => cases hz; exact ⟨.inl ⟨_, rfl, (ver_short a).symm⟩, item_ends (by rintro _ ⟨⟩; rfl) (by rintro _ ⟨⟩; rfl)⟩
  | notEqual =>
    change (ver a).translateNotEqual lim = _ at hz
    rw [ne_set] at hz
    cases hz
    have := ne_text (ver a)
    rw [op_short _ (by decide)] at this
    exact ⟨this, outside_ends _ _ _ _⟩
  | less => cases hz; exact ⟨.inl ⟨_, rfl, (op_short .less rfl a).symm⟩, item_ends (by rintro _ ⟨⟩) (by rintro _ ⟨⟩; rfl)⟩
  | lessOrEqual => cases hz; exact ⟨.inl ⟨_, rfl, (op_short .lessOrEqual rfl a).symm⟩, item_ends (by rintro _ ⟨⟩) (by rintro _ ⟨⟩; rfl)⟩
  | greater => cases hz; exact ⟨.inl ⟨_, rfl, (op_short .greater rfl a).symm⟩, item_ends (by rintro _ ⟨⟩; rfl) (by rintro _ ⟨⟩)⟩
  | greaterOrEqual => cases hz; exact ⟨.inl ⟨_, rfl, (op_short .greaterOrEqual rfl a).symm⟩, item_ends (by rintro _ ⟨⟩; rfl) (by rintro _ ⟨⟩)⟩
  | under =>
    obtain ⟨e1, e2, e3⟩ := h3 rfl
    change (ver a.withZero).translateWildcardEqual = _ at hz
    unfold Version.translateWildcardEqual at hz
    rw [wild e1 e2 e3] at hz
    rw [window_of hz]
    exact ⟨window_text _ _, window_ends _ _⟩
  | underSingle =>
    obtain ⟨e1, e2, e3⟩ := h3 rfl
    change (ver a.withZero).translateWildcardEqual = _ at hz
    unfold Version.translateWildcardEqual at hz
    rw [wild e1 e2 e3] at hz
    rw [window_of hz]
    exact ⟨window_text _ _, window_ends _ _⟩
  | notUnder =>
    obtain ⟨e1, e2, e3⟩ := h3 rfl
    change (ver a.withZero).translateWildcardNotEqual lim = _ at hz
    have hk : (ver a.withZero).key < (ver (a.withZero.bump (a.numbers.length - 1))).key := by
      refine (vlt_iff _ _).1 ((ver_lt (by simp [Pub.withZero]) (bump_ne _ _ (by simp [Pub.withZero]))).2 (.inr ⟨?_, .inl ?_⟩))
      · simp [Pub.bump, Pub.withZero, e1, e3]
      · refine ⟨a.numbers.length - 1, fun j hj => ?_, ?_⟩
        · simp only [Pub.bump, Pub.withZero, e1, e3, and_self, if_true, PublicEdits.upTo_at]
          rw [if_pos (by simp; omega), if_pos hj]
        · simp only [Pub.bump, Pub.withZero, e1, e3, and_self, if_true, PublicEdits.upTo_at]
          rw [if_pos (by simp; omega), if_neg (by omega)]
          simp
    unfold Version.translateWildcardNotEqual Version.translateWildcardEqual at hz
    rw [wild e1 e2 e3] at hz
    have hw : (do .ok (VSet.item (← Item.mkRange (some (ver a.withZero)) (some (ver (a.withZero.bump (a.numbers.length - 1)))) true false)) :
        Except PyErr VSet) = .ok (window (ver a.withZero) (ver (a.withZero.bump (a.numbers.length - 1)))) := by
      rw [mkRange_window, if_neg hk.le.not_gt]; rfl
    simp only [bind, Except.bind] at hz hw
    rw [hw] at hz
    simp only [notUnder_set hk] at hz
    cases hz
    have := notUnder_text hk
    rw [op_short _ (by decide), op_short _ (by decide)] at this
    have e : Ask.setText ⟨.notUnder, a⟩ = join "||".toList [OpType.string .less ++ a.withZero.text,
        OpType.string .greaterOrEqual ++ (a.withZero.bump (a.numbers.length - 1)).text] := by
      simp [Ask.setText, join, List.intercalate, show OpType.string .greaterOrEqual = ">=".toList from by decide +kernel,
        show OpType.string .less = "<".toList from by decide +kernel]
    rw [e]
    exact ⟨this, outside_ends _ _ _ _⟩

end SetTexts

/-- C126. A requirement on public versions, with an operand that is not a development release of a post-release, is read as a version
set, and this is written in the way stated for records: its window, its one version, all but its one version, or both sides of its
window. The set read from the string written is equal. -/
theorem C126_text (lim : Nat) (q : Ask) (h : q.WellFormed) (hb : ¬ (q.version.pre = none ∧ q.version.post ≠ none ∧ q.version.dev ≠ none)) :
    ∃ z y, VSet.parse lim q.text = .ok z ∧ z.toShortStr lim = .ok q.setText ∧
      VSet.parse (lim + 2) q.setText = .ok y ∧ y.eq z = true := by
  obtain ⟨z, hz⟩ := FromPublic.ask_set lim q h hb
  obtain ⟨h1, h2⟩ := SetTexts.set_printed lim q h hz
  obtain ⟨hn, hc⟩ := parsed_canonical hz
  have hne : z ≠ .empty := by
    rintro rfl
    rcases h1 with ⟨i, e, -⟩ | ⟨i, e, -⟩ <;> cases e
  have hs := set_short_text hn h1
  obtain ⟨s, s1, s2, -⟩ := C93_short z hn hne (fun i hi v hv => by
    have := hc i ((has_iff _ _).1 hi)
    rcases hv with hv | hv
    · exact this.1 v hv
    · exact this.2 v hv)
  have e : s = q.setText := Except.ok.inj ((s1 0).symm.trans (hs 0))
  subst e
  obtain ⟨y, y1, y2, y3⟩ := s2 (.inr fun r hr v hv => by
    have := h2 _ ((has_iff _ _).1 hr)
    rcases hv with hv | hv
    · exact this.1 v hv
    · exact this.2 v hv)
  exact ⟨z, y, hz, hs lim, y1 lim, y3⟩

example : Ask.setText ⟨.caret, { numbers := [0, 3, 1], pre := some (.rc, 1) }⟩ = ">=0.3.1rc1,<0.3.1".toList ∧
    Ask.setText ⟨.caret, { epoch := 1, numbers := [1, 2] }⟩ = ">=1!1.2,<1!2.0".toList ∧
    Ask.setText ⟨.tilde, { numbers := [1] }⟩ = ">=1,<2".toList ∧
    Ask.setText ⟨.tildeEqual, { numbers := [1, 4, 2], dev := some 3 }⟩ = ">=1.4.2.dev3,<1.5.0".toList ∧
    Ask.setText ⟨.notUnder, { numbers := [1, 2] }⟩ = "<1.2.0||>=1.3.0".toList ∧
    Ask.setText ⟨.under, { numbers := [3] }⟩ = ">=3.0,<4.0".toList ∧
    Ask.setText ⟨.notEqual, { numbers := [1], post := some 2 }⟩ = "!=1.post2".toList := by decide +kernel

end Verif
