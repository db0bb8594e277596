import Verif.Spec.Order
import Verif.Props.Versions
import Verif.Model.Parsers
/-!
# C60: `<` is the order of PEP 440
-/

namespace Verif

/-- The rank of a key component. -/
def extRank (idx : PyStr → Nat) (top : Nat) : Ext Tag → Rank
  | .negInf => (0, 0)
  | .fin t => (1 + idx t.phase, t.value)
  | .posInf => (top, 0)

theorem extRank_iff (idx : PyStr → Nat) (top : Nat) (P : List PyStr) (h1 : ∀ p ∈ P, 1 + idx p < top)
    (h2 : ∀ p ∈ P, ∀ q ∈ P, strKey p < strKey q ↔ idx p < idx q) (x y : Ext Tag) (hx : ∀ t, x = .fin t → t.phase ∈ P)
    (hy : ∀ t, y = .fin t → t.phase ∈ P) (ht : 0 < top) :
    (extKey Tag.key x < extKey Tag.key y ↔ (extRank idx top x).Below (extRank idx top y)) ∧
    (extKey Tag.key x = extKey Tag.key y ↔ extRank idx top x = extRank idx top y) := by
  have e : ∀ p ∈ P, ∀ q ∈ P, strKey p = strKey q ↔ idx p = idx q := by
    intro p hp q hq
    have a := h2 p hp q hq
    have b := h2 q hq p hp
    constructor
    · intro h
      rw [h] at a b
      simp only [lt_irrefl, false_iff, not_lt] at a b
      omega
    · intro h
      rw [h] at a b
      simp only [lt_irrefl, iff_false, not_lt] at a b
      exact le_antisymm b a
  cases x with
  | negInf =>
    cases y with
    | negInf => simp [extRank, Rank.Below]
    | fin t =>
      simp only [extRank, Rank.Below, extKey_negInf_lt_fin, (extKey_negInf_lt_fin Tag.key t).ne, Prod.mk.injEq, true_iff, false_iff]
      omega
    | posInf => simp [extRank, Rank.Below, extKey_negInf_lt_posInf, (extKey_negInf_lt_posInf Tag.key).ne]; omega
  | fin s =>
    have hs := hx s rfl
    have b1 := h1 _ hs
    cases y with
    | negInf => simp [extRank, Rank.Below, (extKey_negInf_lt_fin Tag.key s).ne', (extKey_negInf_lt_fin Tag.key s).le]
    | fin t =>
      have ht := hy t rfl
      rw [extKey_fin_lt_fin, tagKey_lt, h2 _ hs _ ht, e _ hs _ ht]
      refine ⟨by simp [extRank, Rank.Below], ?_⟩
      constructor
      · intro h
        have := extKey_injective (fun _ _ => tagKey_injective) h
        cases this; rfl
      · intro h
        simp only [extRank, Prod.mk.injEq, Nat.add_left_cancel_iff] at h
        have h3 := strKey_injective ((e _ hs _ ht).2 h.1)
        have : s = t := by cases s; cases t; simp_all
        rw [this]
    | posInf =>
      simp only [extRank, Rank.Below, extKey_fin_lt_posInf, (extKey_fin_lt_posInf Tag.key s).ne, Prod.mk.injEq, true_iff, false_iff]
      omega
  | posInf =>
    cases y with
    | negInf =>
      simp only [extRank, Rank.Below, (extKey_negInf_lt_posInf Tag.key).ne', (extKey_negInf_lt_posInf Tag.key).not_gt, Prod.mk.injEq, false_iff]
      omega
    | fin t =>
      have := h1 _ (hy t rfl)
      simp only [extRank, Rank.Below, (extKey_fin_lt_posInf Tag.key t).ne', (extKey_fin_lt_posInf Tag.key t).not_gt, Prod.mk.injEq, false_iff]
      omega
    | posInf => simp [extRank, Rank.Below]

theorem before_key (x y : LocalPart) : x.Before y ↔ localPartKey x < localPartKey y := by
  unfold localPartKey
  rw [Prod.Lex.toLex_lt_toLex]
  cases x with
  | int m => cases y with
    | int n => simp [LocalPart.Before, Local.comparePart, extKey, strKey]
    | str t => simp [LocalPart.Before, Local.comparePart, extKey]
  | str s => cases y with
    | int n => simp [LocalPart.Before, Local.comparePart, extKey]
    | str t => simp [LocalPart.Before, Local.comparePart, extKey, strKey]

theorem lex_key (l m : List LocalPart) : List.Lex LocalPart.Before l m ↔ l.map localPartKey < m.map localPartKey := by
  induction l generalizing m with
  | nil => cases m <;> simp
  | cons x l ih =>
    cases m with
    | nil => simp
    | cons y m =>
      rw [List.map_cons, List.map_cons, List.cons_lt_cons_iff, ← ih m, ← before_key]
      constructor
      · rintro (_ | _ | _)
        · left; assumption
        · right; exact ⟨rfl, ‹_›⟩
      · rintro (h | ⟨h, h'⟩)
        · exact .rel h
        · rw [localPartKey_injective h]; exact .cons h'

theorem localBefore_iff (l m : Option Local) :
    extKey Local.key (Version.compareLocal l) < extKey Local.key (Version.compareLocal m) ↔ localBefore l m := by
  cases l with
  | none => cases m with
    | none => simp [localBefore]
    | some m => simp [localBefore, Version.compareLocal, extKey_negInf_lt_fin]
  | some l => cases m with
    | none => simp [localBefore, Version.compareLocal, (extKey_negInf_lt_fin Local.key l).not_gt, (extKey_negInf_lt_fin Local.key l).le]
    | some m => simp only [localBefore, Version.compareLocal, extKey_fin_lt_fin, lex_key, Local.key]

theorem comparePre_mem {v : Version} (hv : v.Valid) (t : Tag) (h : Version.comparePre v.pre v.post v.dev = .fin t) :
    t.phase ∈ TagClass.pre.phases.map String.toList := by
  cases hp : v.pre with
  | none => rw [hp] at h; simp only [Version.comparePre] at h; split at h <;> cases h
  | some p => rw [hp] at h; cases h; exact valid_mem (hv.pre _ hp)

theorem comparePost_mem {v : Version} (hv : v.Valid) (t : Tag) (h : Version.comparePost v.post = .fin t) :
    t.phase ∈ TagClass.post.phases.map String.toList := by
  cases hp : v.post with
  | none => rw [hp] at h; cases h
  | some p => rw [hp] at h; cases h; exact valid_mem (hv.post _ hp)

theorem compareDev_mem {v : Version} (hv : v.Valid) (t : Tag) (h : Version.compareDev v.dev = .fin t) :
    t.phase ∈ TagClass.dev.phases.map String.toList := by
  cases hp : v.dev with
  | none => rw [hp] at h; cases h
  | some p => rw [hp] at h; cases h; exact valid_mem (hv.dev _ hp)

theorem preRank_eq (v : Version) :
    v.preRank = extRank (place ["alpha", "beta", "candidate", "preview", "rc"]) 6 (Version.comparePre v.pre v.post v.dev) := by
  unfold Version.preRank
  cases v.pre <;> cases v.post <;> cases v.dev <;> rfl

theorem postRank_eq (v : Version) : v.postRank = extRank (place ["post", "rev"]) 4 (Version.comparePost v.post) := by
  unfold Version.postRank
  cases v.post <;> rfl

theorem devRank_eq {v : Version} (hv : v.Valid) :
    extRank (place ["dev"]) 2 (Version.compareDev v.dev) = (v.devRank.1 + 1, v.devRank.2) := by
  unfold Version.devRank
  cases h : v.dev with
  | none => rfl
  | some t =>
    have aux : ∀ p ∈ TagClass.dev.phases.map String.toList, place ["dev"] p = 0 := by decide +kernel
    simp [Version.compareDev, extRank, aux _ (valid_mem (hv.dev t h))]

/-- C60. For versions without negative release parts, `a < b` holds exactly when PEP 440 orders a before b. -/
theorem C60_order (a b : Version) (ha : a.Valid) (hb : b.Valid) (hna : a.release.NonNeg) (hnb : b.release.NonNeg) :
    a <ₚ b ↔ a.Before b := by
  rw [vlt_iff, key_lt_iff, compareParts_lt_iff _ _ ha.release hb.release hna hnb, compareParts_eq_iff _ _ ha.release hb.release,
    localBefore_iff]
  have pre := extRank_iff (place ["alpha", "beta", "candidate", "preview", "rc"]) 6 (TagClass.pre.phases.map String.toList)
    (by decide +kernel) (by decide +kernel) (Version.comparePre a.pre a.post a.dev) (Version.comparePre b.pre b.post b.dev)
    (comparePre_mem ha) (comparePre_mem hb) (by decide)
  have post := extRank_iff (place ["post", "rev"]) 4 (TagClass.post.phases.map String.toList)
    (by decide +kernel) (by decide +kernel) (Version.comparePost a.post) (Version.comparePost b.post)
    (comparePost_mem ha) (comparePost_mem hb) (by decide)
  have dev := extRank_iff (place ["dev"]) 2 (TagClass.dev.phases.map String.toList)
    (by decide +kernel) (by decide +kernel) (Version.compareDev a.dev) (Version.compareDev b.dev)
    (compareDev_mem ha) (compareDev_mem hb) (by decide)
  rw [pre.1, pre.2, post.1, post.2, dev.1, dev.2, ← preRank_eq, ← preRank_eq, ← postRank_eq, ← postRank_eq, devRank_eq ha, devRank_eq hb]
  have shift : ∀ x y : Rank, (Rank.Below (x.1 + 1, x.2) (y.1 + 1, y.2) ↔ x.Below y) ∧ (((x.1 + 1, x.2) : Rank) = (y.1 + 1, y.2) ↔ x = y) := by
    rintro ⟨x, n⟩ ⟨y, m⟩
    simp [Rank.Below]
  rw [(shift _ _).1, (shift _ _).2]
  rfl

/-- The summary of permitted suffixes and relative ordering in PEP 440, with local segments, is in order. -/
example : (["1.dev0", "1.0.dev456", "1.0a1", "1.0a2.dev456", "1.0a12.dev456", "1.0a12", "1.0b1.dev456", "1.0b2", "1.0b2.post345.dev456",
    "1.0b2.post345", "1.0rc1.dev456", "1.0rc1", "1.0", "1.0+abc.5", "1.0+abc.7", "1.0+5", "1.0.post456.dev34", "1.0.post456", "1.0.15",
    "1.1.dev1"].map (fun s => (Version.parse s.toList).toOption)).IsChain
      (fun a b => ∃ v w, a = some v ∧ b = some w ∧ v <ₚ w) := by
  have aux : ∀ l : List (Option Version), l.IsChain (fun a b => (do let v ← a; let w ← b; some (decide (v <ₚ w))) = some true) →
      l.IsChain (fun a b => ∃ v w, a = some v ∧ b = some w ∧ v <ₚ w) := by
    intro l hl
    refine hl.imp ?_
    intro a b h
    cases a <;> cases b <;> simp_all
  exact aux _ (by decide +kernel)

/-- `1.0b2.post3.dev4` is before `1rc1.dev0`. -/
example : (exVersion [1, 0] (some ⟨"beta".toList, 2⟩) (some ⟨"post".toList, 3⟩) (some ⟨"dev".toList, 4⟩)).Before
    (exVersion [1] (some ⟨"rc".toList, 1⟩) none (some ⟨"dev".toList, 0⟩)) := by
  refine Or.inr ⟨rfl, Or.inr ⟨fun i => ?_, Or.inl ?_⟩⟩
  · match i with
    | 0 => rfl
    | 1 => rfl
    | i + 2 => rfl
  · left; decide +kernel

end Verif
