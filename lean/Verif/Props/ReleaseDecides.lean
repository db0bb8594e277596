import Verif.Props.FromPublic
import Verif.Proofs.ParsedSets
/-!
# C124: requirements on release numbers are decided by release numbers

Whether two requirement strings on release numbers mean the same, exclude each other, follow from each other or cannot be met is a
question about lists of natural numbers, and about what comes before `0`.
-/

namespace Verif
open scoped Verif
open FromText Specifier

namespace ReleaseDecides

/-- The smallest version. -/
def zeroDev : Version := exVersion [0] (dev := some ⟨"dev".toList, 0⟩)

/-- Final versions without an epoch. -/
def OnNumbers (v : Version) : Prop := ∃ l : List Nat, l ≠ [] ∧ v = ver l

def numbersOf (v : Version) : List Nat := v.release.parts.map Int.toNat

theorem OnNumbers.eq {v : Version} (h : OnNumbers v) : numbersOf v ≠ [] ∧ v = ver (numbersOf v) := by
  obtain ⟨l, hl, rfl⟩ := h
  have : numbersOf (ver l) = l := by
    simp only [numbersOf, ver, exVersion, List.map_map]
    exact (List.map_congr_left fun n _ => by simp).trans (List.map_id _)
  rw [this]
  exact ⟨hl, rfl⟩

theorem onNumbers_of {w : Version} (hv : w.Valid) (hf : w.IsFinal) (he : w.epoch = ⟨0⟩) (hn : w.release.NonNeg) : OnNumbers w := by
  refine ⟨numbersOf w, by simpa [numbersOf] using hv.release, ?_⟩
  obtain ⟨e, ⟨r⟩, a, b, c, d⟩ := w
  obtain ⟨f1, f2, f3, f4⟩ := hf
  simp only at f1 f2 f3 f4 he
  subst f1 f2 f3 f4 he
  have : (r.map Int.toNat).map Int.ofNat = r := by
    rw [List.map_map]
    refine (List.map_congr_left fun n hm => ?_).trans (List.map_id r)
    exact Int.toNat_of_nonneg (hn n hm)
  simp only [numbersOf, ver, exVersion, this]

theorem Bumped.onNumbers {i : Nat} {v w : Version} (h : Bumped i v w) (hv : OnNumbers v) : OnNumbers w := by
  obtain ⟨l, hl, rfl⟩ := hv
  refine onNumbers_of h.valid h.final (h.numbers.1.trans rfl) (h.canonical (ver_canonical hl)).release

theorem Dropped.onNumbers {v w : Version} (h : Dropped v w) (hv : OnNumbers v) : OnNumbers w := by
  obtain ⟨l, hl, rfl⟩ := hv
  refine onNumbers_of h.valid h.final (h.epoch.trans rfl) (h.canonical (ver_canonical hl)).release

theorem OnNumbers.valid {v : Version} (h : OnNumbers v) : v.Valid := by obtain ⟨l, hl, rfl⟩ := h; exact ver_valid hl

theorem caret_on {v w : Version} (hv : OnNumbers v) (h : v.nextCaretBreaking = .ok w) : OnNumbers w := by
  obtain ⟨w', h1, h2, h3, h4⟩ := caret_spec hv.valid
  rw [h1] at h; cases h
  cases hs : v.isStable with
  | true => obtain ⟨i, -, hi⟩ := h2 hs; exact Bumped.onNumbers hi hv
  | false =>
    by_cases h0 : v.release.part 0 = 0
    · exact Dropped.onNumbers (h4 hs h0) hv
    · exact Bumped.onNumbers (h3 hs h0) hv

theorem tilde_on {v w : Version} (hv : OnNumbers v) (h : v.nextTildeBreaking = .ok w) : OnNumbers w := by
  obtain ⟨w', h1, h2, h3⟩ := tilde_spec hv.valid
  rw [h1] at h; cases h
  cases hs : v.isStable with
  | true => exact Bumped.onNumbers (h2 hs) hv
  | false => exact Dropped.onNumbers (h3 hs) hv

theorem tildeEqual_on {v w : Version} (hv : OnNumbers v) (h : v.nextTildeEqualBreaking = .ok w) : OnNumbers w := by
  obtain ⟨h1, h2⟩ := tildeEqual_spec hv.valid
  have hpos : 0 < v.release.precision := (precision_pos_iff _).2 hv.valid.release
  by_cases hp : v.release.precision = 1
  · rw [h1 hp] at h; cases h
  · obtain ⟨w', h3, h4⟩ := h2 (by omega)
    rw [h3] at h; cases h
    exact Bumped.onNumbers h4 hv

theorem wildcard_on {v w : Version} (hv : OnNumbers v) (h : v.nextWildcardBreaking = .ok (some w)) : OnNumbers w := by
  rcases wildcard_upper hv.valid with h1 | ⟨w', h1, ⟨i, h2⟩ | h2⟩ <;> rw [h1] at h <;> cases h
  · exact Bumped.onNumbers h2 hv
  · exact Dropped.onNumbers h2 hv

theorem translateWildcard_on {v : Version} (hv : OnNumbers v) {x : VSet} (h : v.translateWildcardEqual = .ok x) :
    AllEnds OnNumbers x.extract := by
  unfold Version.translateWildcardEqual at h
  cases hw : v.nextWildcardBreaking with
  | error e => rw [hw] at h; cases h
  | ok o =>
    rw [hw] at h
    cases o with
    | none => exact ends_of_mkRange (mn := none) (mx := none) (a := false) (b := false) h (by simp) (by simp)
    | some w => exact ends_of_mkRange h (by rintro _ ⟨⟩; exact hv) (by rintro _ ⟨⟩; exact wildcard_on hv hw)

theorem operator_on {lim : Nat} {o : Operator} (hv : OnNumbers o.version) {x : VSet} (h : o.toSet lim = .ok x) :
    AllEnds OnNumbers x.extract := by
  obtain ⟨t, v⟩ := o
  have range : ∀ {f : Version → Except PyErr Version}, (∀ w, f v = .ok w → OnNumbers w) →
      (do .ok (VSet.item (← Item.mkRange (some v) (some (← f v)) true false)) : Except PyErr VSet) = .ok x →
      AllEnds OnNumbers x.extract := by
    intro f hf h
    cases hw : f v with
    | error e => rw [hw] at h; cases h
    | ok w =>
      rw [hw] at h
      exact ends_of_mkRange h (by rintro _ ⟨⟩; exact hv) (by rintro _ ⟨⟩; exact hf _ hw)
  have point : AllEnds OnNumbers (VSet.item (.point v)).extract := allEnds_cons.2 ⟨ends_point.2 hv, allEnds_nil⟩
  cases t
  case tildeEqual => exact range (fun _ => tildeEqual_on hv) h
  case caret => exact range (fun _ => caret_on hv) h
  case tilde => exact range (fun _ => tilde_on hv) h
  case doubleEqual => cases h; exact point
  case equal => cases h; exact point
  case less => exact ends_of_mkRange h (by simp) (by rintro _ ⟨⟩; exact hv)
  case lessOrEqual => exact ends_of_mkRange h (by simp) (by rintro _ ⟨⟩; exact hv)
  case greater => exact ends_of_mkRange h (by rintro _ ⟨⟩; exact hv) (by simp)
  case greaterOrEqual => exact ends_of_mkRange h (by rintro _ ⟨⟩; exact hv) (by simp)
  case wildcardDoubleEqual => exact translateWildcard_on hv h
  case wildcardEqual => exact translateWildcard_on hv h
  case notEqual =>
    have h' : Version.translateNotEqual lim v = .ok x := h
    unfold Version.translateNotEqual at h'
    cases hc : (Version.translateEqual v).complement lim with
    | error e => rw [hc] at h'; cases h'
    | ok c =>
      rw [hc] at h'
      have := complement_ends point hc
      cases c <;> cases h'
      exact this
  case wildcardNotEqual =>
    have h' : Version.translateWildcardNotEqual lim v = .ok x := h
    unfold Version.translateWildcardNotEqual at h'
    cases hw : v.translateWildcardEqual with
    | error e => rw [hw] at h'; cases h'
    | ok w =>
      cases hc : w.complement lim with
      | error e => simp only [hw, hc, bind, Except.bind] at h'; cases h'
      | ok c =>
        have := complement_ends (translateWildcard_on hv hw) hc
        simp only [hw, hc, bind, Except.bind] at h'
        cases c <;> cases h'
        · exact this
        · exact this

/-! ### The specifier of a formula -/

theorem all_on {lim : Nat} {l : List Operator} (h : ∀ o ∈ l, OnNumbers o.version) {x : VSet} (hx : toSet lim (ofAll l) = .ok x) :
    AllEnds OnNumbers x.extract := by
  have one : ∀ o ∈ l, ∀ y, toSet lim (.one o) = .ok y → AllEnds OnNumbers y.extract := fun o ho y hy => by
    simp only [toSet] at hy
    exact operator_on (h o ho) hy
  match l, one, hx with
  | [], _, hx => simp only [ofAll, List.map_nil, toSet] at hx; cases hx
  | [o], one, hx => exact one o (by simp) x hx
  | o :: o' :: l, one, hx =>
    simp only [ofAll, List.map_cons, toSet, bind, Except.bind] at hx
    cases hy : toSet lim (.one o) with
    | error e => simp only [toSet] at hy; rw [hy] at hx; cases hx
    | ok y =>
      have hy' := hy
      simp only [toSet] at hy'
      rw [hy'] at hx
      refine reduceAll_ends (one o (by simp) y hy) (fun t ht => ?_) hx
      have ht' : t ∈ (o' :: l).map Specifier.one := by simpa using ht
      obtain ⟨p, hp, rfl⟩ := List.mem_map.1 ht'
      exact one p (List.mem_cons_of_mem _ hp)

theorem any_on {lim : Nat} {f : List (List Operator)} (h : ∀ l ∈ f, ∀ o ∈ l, OnNumbers o.version) {x : VSet}
    (hx : toSet lim (ofAny f) = .ok x) : AllEnds OnNumbers x.extract := by
  have one : ∀ l ∈ f, ∀ y, toSet lim (ofAll l) = .ok y → AllEnds OnNumbers y.extract := fun l hl y hy => all_on (h l hl) hy
  match f, one, hx with
  | [], _, hx => simp only [ofAny, List.map_nil, toSet] at hx; cases hx
  | [o], one, hx => exact one o (by simp) x hx
  | o :: o' :: l, one, hx =>
    simp only [ofAny, List.map_cons, toSet, bind, Except.bind] at hx
    cases hy : toSet lim (ofAll o) with
    | error e => rw [hy] at hx; cases hx
    | ok y =>
      rw [hy] at hx
      refine reduceAny_ends (one o (by simp) y hy) (fun t ht => ?_) hx
      have ht' : t ∈ (o' :: l).map ofAll := by simpa using ht
      obtain ⟨p, hp, rfl⟩ := List.mem_map.1 ht'
      exact one p (List.mem_cons_of_mem _ hp)

theorem ofAny_one {gs : List (List Operator)} {o : Operator} (h : Specifier.one o = ofAny gs) : gs = [[o]] := by
  match gs, h with
  | [], h => exact absurd h (by simp [ofAny])
  | [[]], h => exact absurd h (by simp [ofAny, ofAll])
  | [[p]], h => simp only [ofAny, ofAll, Specifier.one.injEq] at h; rw [h]
  | [_ :: _ :: _], h => exact absurd h (by simp [ofAny, ofAll])
  | _ :: _ :: _, h => exact absurd h (by simp [ofAny])

theorem need_shape (n : Need) (h : n.WellFormed) : AllOf (n.text.filter (fun c => !isSpace c)) [operator n] := by
  obtain ⟨gs, h1, h2⟩ := (Specifier.parse_ok_iff' _ _).1 (need_parse n h)
  rw [ofAny_one h2] at h1
  obtain ⟨ops, h3, h4⟩ := h1.single (fun hc => pipe_text n (List.mem_filter.1 hc).1)
  cases h3
  exact h4

theorem all_shape (l : List Need) (hl : l ≠ []) (h : ∀ n ∈ l, n.WellFormed) :
    AllOf ((allText l).filter (fun c => !isSpace c)) (l.map operator) := by
  induction l with
  | nil => exact absurd rfl hl
  | cons n l ih =>
    have hn := need_shape n (h n (by simp))
    cases l with
    | nil => simpa [allText, List.intercalate] using hn
    | cons m l =>
      have e : allText (n :: m :: l) = n.text ++ ",".toList ++ allText (m :: l) := by
        simp [allText, List.intercalate_cons_cons]
      have e' : (",".toList).filter (fun c => !isSpace c) = [','] := by decide +kernel
      have := hn.join (ih (by simp) (fun n hn => h n (List.mem_cons_of_mem _ hn)))
      rw [e]
      simpa only [List.filter_append, e', List.append_assoc, List.singleton_append, List.map_cons] using this

theorem any_shape (f : List (List Need)) (hf : f ≠ []) (h : ∀ l ∈ f, l ≠ [] ∧ ∀ n ∈ l, n.WellFormed) :
    AnyOf ((anyText f).filter (fun c => !isSpace c)) (f.map (·.map operator)) := by
  induction f with
  | nil => exact absurd rfl hf
  | cons l f ih =>
    have hl := (all_shape l (h l (by simp)).1 (h l (by simp)).2).any
    cases f with
    | nil => simpa [anyText, List.intercalate] using hl
    | cons m f =>
      have e : anyText (l :: m :: f) = allText l ++ "||".toList ++ anyText (m :: f) := by
        simp [anyText, List.intercalate_cons_cons]
      have e' : ("||".toList).filter (fun c => !isSpace c) = ['|', '|'] := by decide +kernel
      have := hl.join (ih (by simp) (fun n hn => h n (List.mem_cons_of_mem _ hn))) true
      rw [e]
      simpa only [List.filter_append, e', List.map_cons, if_true, List.singleton_append] using this

theorem formula_parse (f : List (List Need)) (hf : f ≠ []) (h : ∀ l ∈ f, l ≠ [] ∧ ∀ n ∈ l, n.WellFormed) (t : PyStr)
    (ht : t.filter (fun c => !isSpace c) = anyText f) : Specifier.parse t = .ok (ofAny (f.map (·.map operator))) := by
  rw [spaced ht]
  exact (Specifier.parse_ok_iff' _ _).2 ⟨_, any_shape f hf h, rfl⟩

theorem operator_onNumbers (n : Need) (h : n.WellFormed) : OnNumbers (operator n).version := by
  unfold operator
  split
  · exact ⟨n.parts ++ [0], by simp, rfl⟩
  · exact ⟨n.parts, h.1, rfl⟩

theorem formula_on {lim : Nat} {f : List (List Need)} (hf : f ≠ []) (h : ∀ l ∈ f, l ≠ [] ∧ ∀ n ∈ l, n.WellFormed) {t : PyStr}
    (ht : t.filter (fun c => !isSpace c) = anyText f) {z : VSet} (hz : VSet.parse lim t = .ok z) : AllEnds OnNumbers z.extract := by
  unfold VSet.parse at hz
  rw [formula_parse f hf h t ht] at hz
  refine any_on (fun l hl o ho => ?_) hz
  obtain ⟨m, hm, rfl⟩ := List.mem_map.1 hl
  obtain ⟨n, hn, rfl⟩ := List.mem_map.1 ho
  exact operator_onNumbers n ((h m hm).2 n hn)

/-! ### Witnesses -/

theorem zeroDev_lt {l : List Nat} (hl : l ≠ []) : zeroDev.key < (ver l).key := by
  have h := (FromPublic.ver_lt (x := { numbers := [0], dev := some 0 }) (y := { numbers := l }) (by simp) hl).2 (by
    refine .inr ⟨rfl, ?_⟩
    by_cases h0 : ∀ i, numAt l i = 0
    · refine .inr ⟨fun i => ?_, .inl ?_⟩
      · show numAt [0] i = numAt l i
        rw [h0 i]; rcases i with _ | i <;> rfl
      · exact .inl (show 0 < 4 by decide)
    · left
      have h0 : ∃ i, numAt l i ≠ 0 := by simpa using h0
      have hz : ∀ i, numAt [0] i = 0 := fun i => by rcases i with _ | i <;> rfl
      refine ⟨Nat.find h0, fun j hj => ?_, ?_⟩
      · have := Nat.find_min h0 hj
        show numAt [0] j = numAt l j
        rw [hz, not_not.1 this]
      · have := Nat.find_spec h0
        show numAt [0] _ < numAt l _
        rw [hz]; omega)
  exact (vlt_iff _ _).1 h

/-- The numbers of `l`, many zeros, and a one. -/
def after (l : List Nat) (n : Nat) : List Nat := l ++ List.replicate n 0 ++ [1]

theorem after_at (l : List Nat) (n i : Nat) : numAt (after l n) i = if i = l.length + n then 1 else numAt l i := by
  simp only [numAt, after, List.getD_eq_getElem?_getD, List.getElem?_append, List.length_append, List.length_replicate, List.getElem?_replicate]
  by_cases h1 : i < l.length
  · rw [if_pos (by omega), if_pos h1, if_neg (by omega)]
  · by_cases h2 : i < l.length + n
    · rw [if_pos h2, if_neg h1, if_pos (by omega), if_neg (by omega)]
      simp [List.getElem?_eq_none (by omega : l.length ≤ i)]
    · rw [if_neg h2]
      by_cases h3 : i = l.length + n
      · subst h3; simp
      · rw [if_neg h3, List.getElem?_eq_none (by simp; omega), List.getElem?_eq_none (by omega)]

theorem after_greater (l : List Nat) (n : Nat) : Smaller l (after l n) := by
  refine ⟨l.length + n, fun i hi => ?_, ?_⟩
  · rw [after_at, if_neg (by omega)]
  · rw [after_at, if_pos rfl, numAt, List.getD_eq_getElem?_getD, List.getElem?_eq_none (by omega)]
    exact Nat.one_pos

theorem after_smaller {l m : List Nat} {n : Nat} (hm : m.length ≤ n) (h : Smaller l m) : Smaller (after l n) m := by
  obtain ⟨i, h1, h2⟩ := h
  have hi : i < m.length := by
    by_contra hc
    rw [show numAt m i = 0 by rw [numAt, List.getD_eq_getElem?_getD, List.getElem?_eq_none (by omega)]; rfl] at h2
    omega
  refine ⟨i, fun j hj => ?_, ?_⟩
  · rw [after_at, if_neg (by omega)]; exact h1 j hj
  · rw [after_at, if_neg (by omega)]; exact h2

theorem key_lt {x y : List Nat} (hx : x ≠ []) (hy : y ≠ []) : (ver x).key < (ver y).key ↔ Smaller x y := by
  rw [← ver_lt hx hy, vlt_iff]

theorem greatest {α : Type} (f : α → Cut) (l : List α) (h : l ≠ []) : ∃ a ∈ l, ∀ b ∈ l, f b ≤ f a := by
  induction l with
  | nil => exact absurd rfl h
  | cons a l ih =>
    by_cases hl : l = []
    · subst hl; exact ⟨a, by simp, by simp⟩
    · obtain ⟨b, hb, hmax⟩ := ih hl
      rcases le_total (f a) (f b) with hab | hab
      · exact ⟨b, by simp [hb], by simpa using ⟨hab, hmax⟩⟩
      · exact ⟨a, by simp, by simpa using fun c hc => (hmax c hc).trans hab⟩

theorem longest (E : List (List Nat)) : ∃ n, ∀ m ∈ E, m.length ≤ n := by
  induction E with
  | nil => exact ⟨0, by simp⟩
  | cons l E ih =>
    obtain ⟨n, h⟩ := ih
    refine ⟨max l.length n, fun m hm => ?_⟩
    rcases List.mem_cons.1 hm with rfl | hm
    · exact le_max_left _ _
    · exact (h m hm).trans (le_max_right _ _)

theorem witness (E : List (List Nat)) (hE : ∀ l ∈ E, l ≠ []) (c : Cut) :
    ∃ w, (w = zeroDev ∨ ∃ x : List Nat, x ≠ [] ∧ w = ver x) ∧ ∀ l ∈ E, ∀ b, cutAt (ver l) b ≤ c ↔ cutAt (ver l) b ≤ cut w := by
  classical
  let F : List (List Nat × Bool) := (E.flatMap fun l => [(l, false), (l, true)]).filter fun p => cutAt (ver p.1) p.2 ≤ c
  have hF : ∀ l b, (l, b) ∈ F ↔ l ∈ E ∧ cutAt (ver l) b ≤ c := fun l b => by cases b <;> simp [F]
  by_cases hne : F ≠ []
  · obtain ⟨⟨l, b⟩, h1, h2⟩ := greatest (fun p => cutAt (ver p.1) p.2) F hne
    obtain ⟨hl, hc⟩ := (hF l b).1 h1
    have hmax : ∀ m ∈ E, ∀ b', cutAt (ver m) b' ≤ c → cutAt (ver m) b' ≤ cutAt (ver l) b := fun m hm b' h =>
      h2 (m, b') ((hF m b').2 ⟨hm, h⟩)
    cases b with
    | false => exact ⟨ver l, .inr ⟨l, hE l hl, rfl⟩, fun m hm b' => ⟨hmax m hm b', fun h => h.trans hc⟩⟩
    | true =>
      obtain ⟨n, hn⟩ : ∃ n, ∀ m ∈ E, m.length ≤ n := longest E
      have hw : after l n ≠ [] := by simp [after]
      refine ⟨ver (after l n), .inr ⟨_, hw, rfl⟩, fun m hm b' => ⟨fun h => (hmax m hm b' h).trans ?_, fun h => le_trans ?_ hc⟩⟩
      · exact (cutAt_le _ _ _ _).2 (.inl ((key_lt (hE l hl) hw).2 (after_greater l n)))
      · rw [cutAt_le]
        by_contra hcon
        have hlm : (ver l).key < (ver m).key := by
          rcases lt_trichotomy (ver l).key (ver m).key with h | h | h
          · exact h
          · exact absurd (.inr ⟨h.symm, fun _ => rfl⟩) hcon
          · exact absurd (.inl h) hcon
        have hwm := (key_lt hw (hE m hm)).2 (after_smaller (hn m hm) ((key_lt (hE l hl) (hE m hm)).1 hlm))
        rcases (cutAt_le _ _ _ _).1 h with h | ⟨h, -⟩
        · exact lt_asymm h hwm
        · exact absurd h hwm.ne'
  · refine ⟨zeroDev, .inl rfl, fun l hl b => ⟨fun h => absurd (List.ne_nil_of_mem ((hF l b).2 ⟨hl, h⟩)) hne, fun h => ?_⟩⟩
    have := zeroDev_lt (hE l hl)
    rcases (cutAt_le _ _ _ _).1 h with h | ⟨h, -⟩
    · exact absurd h (lt_asymm this)
    · exact absurd h this.ne'

/-- A version that is in each of two sets exactly if the cut is. -/
theorem decide_cut {x y : VSet} (hx : AllEnds OnNumbers x.extract) (hy : AllEnds OnNumbers y.extract) (c : Cut) (hc : c ≠ ⊤) :
    ∃ w, (w = zeroDev ∨ ∃ n : List Nat, n ≠ [] ∧ w = ver n) ∧ (x.Cov c ↔ x.contains w = true) ∧ (y.Cov c ↔ y.contains w = true) := by
  have hxy : AllEnds OnNumbers (x.extract ++ y.extract) := allEnds_append.2 ⟨hx, hy⟩
  let E := (x.extract ++ y.extract).flatMap fun i => (i.min.toList ++ i.max.toList).map numbersOf
  have hE : ∀ l ∈ E, l ≠ [] := by
    intro l hl
    obtain ⟨i, hi, hl⟩ := List.mem_flatMap.1 hl
    obtain ⟨v, hv, rfl⟩ := List.mem_map.1 hl
    rcases List.mem_append.1 hv with hv | hv
    · exact ((hxy i hi).1 v (Option.mem_toList.1 hv)).eq.1
    · exact ((hxy i hi).2 v (Option.mem_toList.1 hv)).eq.1
  obtain ⟨w, hw, key⟩ := witness E hE c
  have ends : ∀ i ∈ x.extract ++ y.extract, (i.lo ≤ c ↔ i.lo ≤ cut w) ∧ (c < i.hi ↔ cut w < i.hi) := by
    intro i hi
    constructor
    · cases hm : i.min with
      | none => simp [Item.lo, loOf, hm]
      | some v =>
        have hv := ((hxy i hi).1 v hm).eq.2
        have := key (numbersOf v) (List.mem_flatMap.2 ⟨i, hi, List.mem_map_of_mem (by simp [hm])⟩) (!i.includeMin)
        rw [← hv] at this
        simpa only [Item.lo, loOf, hm] using this
    · cases hm : i.max with
      | none =>
        simp only [Item.hi, hiOf, hm]
        exact iff_of_true (lt_top_iff_ne_top.2 hc) (cutAt_lt_top _ _)
      | some v =>
        have hv := ((hxy i hi).2 v hm).eq.2
        have := key (numbersOf v) (List.mem_flatMap.2 ⟨i, hi, List.mem_map_of_mem (by simp [hm])⟩) i.includeMax
        rw [← hv] at this
        simp only [Item.hi, hiOf, hm]
        rw [← not_le, ← not_le, this]
  refine ⟨w, hw, ?_, ?_⟩
  · rw [contains_cov]
    exact exists_congr fun i => and_congr_right fun hi => by
      obtain ⟨h1, h2⟩ := ends i (List.mem_append_left _ hi)
      rw [h1, h2]
  · rw [contains_cov]
    exact exists_congr fun i => and_congr_right fun hi => by
      obtain ⟨h1, h2⟩ := ends i (List.mem_append_right _ hi)
      rw [h1, h2]

theorem cov_not_top {x : VSet} {c : Cut} (h : x.Cov c) : c ≠ ⊤ := by
  rintro rfl
  obtain ⟨i, -, -, h⟩ := h
  exact absurd h (not_lt.2 le_top)

end ReleaseDecides

open ReleaseDecides

/-! ## C124, for sets -/

/-- All versions that the set is built from are final and without an epoch. -/
def VSet.OnNumbers (z : VSet) : Prop :=
  ∀ i ∈ z.extract, ∀ v, i.min = some v ∨ i.max = some v → ∃ l : List Nat, l ≠ [] ∧ v = exVersion (l.map Int.ofNat)

theorem VSet.OnNumbers.ends {z : VSet} (h : z.OnNumbers) : AllEnds ReleaseDecides.OnNumbers z.extract :=
  fun i hi => ⟨fun v hv => h i hi v (.inl hv), fun v hv => h i hi v (.inr hv)⟩

theorem VSet.OnNumbers.of {z : VSet} (h : AllEnds ReleaseDecides.OnNumbers z.extract) : z.OnNumbers :=
  fun i hi v hv => hv.elim ((h i hi).1 v) ((h i hi).2 v)

/-- The version with these numbers. -/
abbrev releaseOf (n : List Nat) : Version := exVersion (n.map Int.ofNat)

/-- C124. Sets built from release numbers compare, overlap and are empty as their release numbers and `0.dev0` say. -/
theorem C124_sets (x y : VSet) (nx : x.Normal) (ny : y.Normal) (hx : x.OnNumbers) (hy : y.OnNumbers) :
    (x.eq y = true ↔ x.contains zeroDev = y.contains zeroDev ∧ ∀ n, n ≠ [] → x.contains (releaseOf n) = y.contains (releaseOf n)) ∧
    (x.includes y = true ↔ (y.contains zeroDev = true → x.contains zeroDev = true) ∧
      ∀ n, n ≠ [] → y.contains (releaseOf n) = true → x.contains (releaseOf n) = true) ∧
    (x.intersects y = true ↔ x.contains zeroDev = true ∧ y.contains zeroDev = true ∨
      ∃ n, n ≠ [] ∧ x.contains (releaseOf n) = true ∧ y.contains (releaseOf n) = true) ∧
    (x.isEmpty = true ↔ x.contains zeroDev = false ∧ ∀ n, n ≠ [] → x.contains (releaseOf n) = false) := by
  have dec := decide_cut hx.ends hy.ends
  refine ⟨⟨fun h => ?_, fun h => ?_⟩, ⟨fun h => ?_, fun h => ?_⟩, ⟨fun h => ?_, fun h => ?_⟩, ⟨fun h => ?_, fun h => ?_⟩⟩
  · exact ⟨C28_eq_same_versions x y nx ny h _, fun n _ => C28_eq_same_versions x y nx ny h _⟩
  · rw [eq_iff_cov nx ny]
    intro c
    by_cases hc : c = ⊤
    · exact iff_of_false (fun h => cov_not_top h hc) (fun h => cov_not_top h hc)
    · obtain ⟨w, hw, h1, h2⟩ := dec c hc
      rw [h1, h2]
      rcases hw with rfl | ⟨n, hn, rfl⟩
      · rw [h.1]
      · exact Bool.eq_iff_iff.1 (h.2 n hn)
  · rw [includes_iff_cov nx ny] at h
    simp only [contains_cov]
    exact ⟨h _, fun n _ => h _⟩
  · rw [includes_iff_cov nx ny]
    intro c hc
    obtain ⟨w, hw, h1, h2⟩ := dec c (cov_not_top hc)
    rw [h2] at hc
    rw [h1]
    rcases hw with rfl | ⟨n, hn, rfl⟩
    · exact h.1 hc
    · exact h.2 n hn hc
  · obtain ⟨c, c1, c2⟩ := (intersects_iff_cov nx ny).1 h
    obtain ⟨w, hw, h1, h2⟩ := dec c (cov_not_top c1)
    rw [h1] at c1
    rw [h2] at c2
    rcases hw with rfl | ⟨n, hn, rfl⟩
    · exact .inl ⟨c1, c2⟩
    · exact .inr ⟨n, hn, c1, c2⟩
  · rw [intersects_iff_cov nx ny]
    simp only [contains_cov] at h
    rcases h with ⟨h1, h2⟩ | ⟨n, -, h1, h2⟩
    · exact ⟨_, h1, h2⟩
    · exact ⟨_, h1, h2⟩
  · have he : x = .empty := by
      cases x with
      | empty => rfl
      | item i => rw [VSet.isEmpty, isEmpty_false (show i.Normal from nx)] at h; cases h
      | union l => cases h
    subst he
    exact ⟨rfl, fun _ _ => rfl⟩
  · by_contra hne
    have he : x ≠ .empty := by rintro rfl; exact hne rfl
    obtain ⟨c, hc⟩ : ∃ c, x.Cov c := by
      by_contra hcon
      refine he ?_
      have := (eq_iff_cov nx (b := .empty) trivial).2 fun c => iff_of_false (fun h => hcon ⟨c, h⟩) (by rintro ⟨i, hi, -⟩; cases hi)
      cases x with
      | empty => rfl
      | item i => cases this
      | union l => cases this
    obtain ⟨w, hw, h1, -⟩ := dec c (cov_not_top hc)
    rw [h1] at hc
    rcases hw with rfl | ⟨n, hn, rfl⟩
    · rw [h.1] at hc; cases hc
    · cases hc.symm.trans (h.2 n hn)

/-- `<0` has no release numbers and is not empty: it has `0.dev0`. -/
example : VSet.OnNumbers (.item (exRange none (some [0]) false)) ∧ (VSet.item (exRange none (some [0]) false)).contains zeroDev = true ∧
    (VSet.item (exRange none (some [0]) false)).isEmpty = false := by
  refine ⟨fun i hi v hv => ⟨[0], by simp, ?_⟩, by decide +kernel, by decide +kernel⟩
  cases List.mem_singleton.1 hi
  rcases hv with hv | hv <;> cases hv
  rfl

/-- C124. The operations on sets give sets built from release numbers again. -/
theorem C124_operations (lim : Nat) (x y z : VSet) (hx : x.OnNumbers) (hy : y.OnNumbers) :
    (x.intersection lim y = .ok z → z.OnNumbers) ∧ (x.unionWith lim y = .ok z → z.OnNumbers) ∧
    (x.difference lim y = .ok z → z.OnNumbers) ∧ (x.symmetricDifference lim y = .ok z → z.OnNumbers) ∧
    (x.complement lim = .ok z → z.OnNumbers) :=
  ⟨fun h => .of (intersection_ends hx.ends hy.ends h), fun h => .of (unionWith_ends hx.ends hy.ends h),
    fun h => .of (difference_ends hx.ends hy.ends h), fun h => .of (symmetricDifference_ends hx.ends hy.ends h),
    fun h => .of (complement_ends hx.ends h)⟩

example : (VSet.item (exRange (some [1]) (some [3]))).complement 3 = .ok (.union [exRange none (some [1]) false, exRange (some [3]) none]) := by
  decide +kernel

/-! ## C124, for strings -/

/-- One group has only signs that do not exclude what comes before `0`. -/
def OpenBelow (f : List (List Need)) : Prop :=
  ∃ l ∈ f, ∀ n ∈ l, n.sign = .less ∨ n.sign = .lessOrEqual ∨ n.sign = .notEqual ∨ n.sign = .notUnder

/-- The numbers satisfy all requirements of one of the groups. -/
def Met (f : List (List Need)) (x : List Nat) : Prop := ∃ l ∈ f, ∀ n ∈ l, n.Holds x

/-- The string is the requirements with commas and bars between them, and with whitespace anywhere. -/
structure Writes (t : PyStr) (f : List (List Need)) : Prop where
  some : f ≠ []
  each : ∀ l ∈ f, l ≠ [] ∧ ∀ n ∈ l, n.WellFormed
  text : t.filter (fun c => !isSpace c) = anyText f

namespace ReleaseDecides

theorem zero_below (a : List Nat) (ha : a ≠ []) : Pub.Below { numbers := [0], dev := some 0 } { numbers := a } :=
  (FromPublic.ver_lt (by simp) ha).1 ((vlt_iff _ _).2 (zeroDev_lt ha))

theorem need_zero (n : Need) (h : n.WellFormed) : (operator n).accepts zeroDev = .ok true ↔
    n.sign = .less ∨ n.sign = .lessOrEqual ∨ n.sign = .notEqual ∨ n.sign = .notUnder := by
  obtain ⟨s, a⟩ := n
  obtain ⟨h1, h2⟩ := h
  simp only at h1 h2
  obtain ⟨b, b1, b2⟩ := FromPublic.ask_accepts ⟨s, { numbers := a }⟩ ⟨h1, h2, fun _ => ⟨rfl, rfl, rfl⟩⟩ { numbers := [0], dev := some 0 } (by simp)
  have e : (operator ⟨s, a⟩).accepts zeroDev = .ok b := b1
  have hb := zero_below a h1
  have hb' : ¬ Pub.Below { numbers := a } { numbers := [0], dev := some 0 } := by
    intro h
    have := (vlt_iff _ _).1 ((FromPublic.ver_lt h1 (by simp)).2 h)
    exact lt_asymm this ((vlt_iff _ _).1 ((FromPublic.ver_lt (by simp) h1).2 hb))
  have hs : ¬ Pub.Same { numbers := [0], dev := some 0 } { numbers := a } := fun h => by cases h.2.2.2.2
  rw [e, Except.ok.injEq, b2]
  cases s <;> simp [Ask.Holds, hb, hb', hs]

theorem formula_zero {f : List (List Need)} {t : PyStr} (w : Writes t f) {lim : Nat} {z : VSet} (hz : VSet.parse lim t = .ok z) :
    z.contains zeroDev = true ↔ OpenBelow f := by
  rw [vset_contains_iff_mem, parsed_mem hz (formula_parse f w.some w.each t w.text)]
  obtain ⟨b, b1, b2⟩ := ofAny_accepts (any_shape f w.some w.each) zeroDev
  rw [b1, Except.ok.injEq, b2]
  constructor
  · rintro ⟨g, hg, h⟩
    obtain ⟨l, hl, rfl⟩ := List.mem_map.1 hg
    exact ⟨l, hl, fun n hn => (need_zero n ((w.each l hl).2 n hn)).1 (h _ (List.mem_map_of_mem hn))⟩
  · rintro ⟨l, hl, h⟩
    refine ⟨_, List.mem_map_of_mem hl, fun o ho => ?_⟩
    obtain ⟨n, hn, rfl⟩ := List.mem_map.1 ho
    exact (need_zero n ((w.each l hl).2 n hn)).2 (h n hn)

theorem formula_met {f : List (List Need)} {t : PyStr} (w : Writes t f) {lim : Nat} {z : VSet} (hz : VSet.parse lim t = .ok z)
    (x : List Nat) (hx : x ≠ []) : z.contains (releaseOf x) = true ↔ Met f x := by
  obtain ⟨v, h1, h2⟩ := C122_set f w.some w.each t w.text x hx
  have : Version.parse (relText x) = .ok (ver x) := by rw [← ver_short]; exact C38_short_round_trip _ (ver_canonical hx)
  rw [this] at h1
  cases h1
  exact (h2 lim).2 z hz

end ReleaseDecides

section
variable {s t : PyStr} {f g : List (List Need)} (hs : Writes s f) (ht : Writes t g) {lim lim' : Nat} {x y : VSet}
  (hx : VSet.parse lim s = .ok x) (hy : VSet.parse lim' t = .ok y)
include hs ht hx hy

/-- C124. Two strings are read as equal sets exactly if the same release numbers meet them, and both or neither are open below `0`. -/
theorem C124_equal : x.eq y = true ↔ (OpenBelow f ↔ OpenBelow g) ∧ ∀ n, n ≠ [] → (Met f n ↔ Met g n) := by
  rw [(C124_sets x y (parsed_canonical hx).1 (parsed_canonical hy).1 (.of (formula_on hs.some hs.each hs.text hx))
    (.of (formula_on ht.some ht.each ht.text hy))).1, Bool.eq_iff_iff, formula_zero hs hx, formula_zero ht hy]
  refine and_congr_right fun _ => forall_congr' fun n => imp_congr_right fun hn => ?_
  rw [Bool.eq_iff_iff, formula_met hs hx n hn, formula_met ht hy n hn]

omit hs ht hx hy in
example : Writes "~1".toList [[⟨.tilde, [1]⟩]] ∧ Writes ">=1, <2".toList [[⟨.greaterOrEqual, [1]⟩, ⟨.less, [2]⟩]] ∧
    ((VSet.parse 5 "~1".toList).bind fun x => (VSet.parse 5 ">=1, <2".toList).bind fun y => .ok (x.eq y)) = .ok true := by
  refine ⟨⟨by simp, by simp [Need.WellFormed], by decide +kernel⟩, ⟨by simp, by simp [Need.WellFormed], by decide +kernel⟩, by decide +kernel⟩
omit hs ht hx hy in
/-- These differ only below `0`. -/
example : Writes "<0".toList [[⟨.less, [0]⟩]] ∧ OpenBelow [[⟨.less, [0]⟩]] ∧ Writes "<1,>1".toList [[⟨.less, [1]⟩, ⟨.greater, [1]⟩]] ∧
    ¬ OpenBelow [[⟨.less, [1]⟩, ⟨.greater, [1]⟩]] ∧
    ((VSet.parse 5 "<0".toList).bind fun x => (VSet.parse 5 "<1,>1".toList).bind fun y => .ok (x.eq y)) = .ok false := by
  refine ⟨⟨by simp, by simp [Need.WellFormed], by decide +kernel⟩, by simp [OpenBelow], ⟨by simp, by simp [Need.WellFormed], by decide +kernel⟩,
    by simp [OpenBelow], by decide +kernel⟩

/-- C124. One string includes the other exactly if it is met by the release numbers that meet the other, and is open below `0` if
the other is. -/
theorem C124_includes : x.includes y = true ↔ (OpenBelow g → OpenBelow f) ∧ ∀ n, n ≠ [] → Met g n → Met f n := by
  rw [(C124_sets x y (parsed_canonical hx).1 (parsed_canonical hy).1 (.of (formula_on hs.some hs.each hs.text hx))
    (.of (formula_on ht.some ht.each ht.text hy))).2.1, formula_zero hs hx, formula_zero ht hy]
  refine and_congr_right fun _ => forall_congr' fun n => imp_congr_right fun hn => ?_
  rw [formula_met hs hx n hn, formula_met ht hy n hn]

omit hs ht hx hy in
example : ((VSet.parse 5 "^1".toList).bind fun x => (VSet.parse 5 "~1.2".toList).bind fun y => .ok (x.includes y, y.includes x)) =
    .ok (true, false) := by decide +kernel

/-- C124. Two strings are compatible exactly if some release numbers meet both, or both are open below `0`. -/
theorem C124_intersects : x.intersects y = true ↔ OpenBelow f ∧ OpenBelow g ∨ ∃ n, n ≠ [] ∧ Met f n ∧ Met g n := by
  rw [(C124_sets x y (parsed_canonical hx).1 (parsed_canonical hy).1 (.of (formula_on hs.some hs.each hs.text hx))
    (.of (formula_on ht.some ht.each ht.text hy))).2.2.1, formula_zero hs hx, formula_zero ht hy]
  refine or_congr_right (exists_congr fun n => and_congr_right fun hn => ?_)
  rw [formula_met hs hx n hn, formula_met ht hy n hn]

omit hs ht hx hy in
example : ((VSet.parse 5 "^1".toList).bind fun x => (VSet.parse 5 "~2.0".toList).bind fun y => .ok (x.intersects y)) = .ok false ∧
    ((VSet.parse 5 "<1".toList).bind fun x => (VSet.parse 5 "!=0.*".toList).bind fun y => .ok (x.intersects y)) = .ok true := by
  decide +kernel

omit ht hy in
/-- C124. A string is read as the empty set exactly if no release numbers meet it and it is not open below `0`. -/
theorem C124_empty : x.isEmpty = true ↔ ¬ OpenBelow f ∧ ∀ n, n ≠ [] → ¬ Met f n := by
  have ox := VSet.OnNumbers.of (formula_on hs.some hs.each hs.text hx)
  rw [(C124_sets x x (parsed_canonical hx).1 (parsed_canonical hx).1 ox ox).2.2.2, ← Bool.not_eq_true, formula_zero hs hx]
  refine and_congr_right fun _ => forall_congr' fun n => imp_congr_right fun hn => ?_
  rw [← Bool.not_eq_true, formula_met hs hx n hn]

omit hs ht hx hy in
example : ((VSet.parse 5 "<1,>1".toList).bind fun x => .ok x.isEmpty) = .ok true ∧
    ((VSet.parse 5 "<0".toList).bind fun x => .ok x.isEmpty) = .ok false := by decide +kernel

end

end Verif
