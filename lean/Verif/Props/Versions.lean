import Verif.Proofs.Version
import Verif.Spec.Decide
/-!
# Properties of versions: C01-C04, C06-C12, C14
-/
set_option linter.unusedSimpArgs false

namespace Verif
open scoped Verif

/-- `parts` with tags, used in examples. -/
def exVersion (parts : List Int) (pre post dev : Option Tag := none) (l : Option Local := none) : Version :=
  { release := ⟨parts⟩, pre := pre, post := post, dev := dev, local_ := l }

/-! ## C01: total order -/

/-- C01. Exactly one of `a < b`, `a == b`, `a > b`. -/
theorem C01_trichotomy (a b : Version) :
    (a <ₚ b ∧ ¬ a ==ₚ b ∧ ¬ a >ₚ b) ∨ (¬ a <ₚ b ∧ a ==ₚ b ∧ ¬ a >ₚ b) ∨ (¬ a <ₚ b ∧ ¬ a ==ₚ b ∧ a >ₚ b) := by
  simp only [vlt_iff, veq_iff, vgt_iff]
  rcases lt_trichotomy a.key b.key with h | h | h
  · left; exact ⟨h, h.ne, not_lt_of_gt h⟩
  · right; left; rw [h]; exact ⟨lt_irrefl _, rfl, lt_irrefl _⟩
  · right; right; exact ⟨not_lt_of_gt h, h.ne', h⟩

example : exVersion [1, 2] <ₚ exVersion [1, 10] ∧ exVersion [1, 2] ==ₚ exVersion [1, 2, 0] ∧ exVersion [2] >ₚ exVersion [1, 10] := by
  decide +kernel

/-- C01. `<`, `<=` and `==` are transitive; `==` is reflexive and symmetric. -/
theorem C01_trans (a b c : Version) :
    (a <ₚ b → b <ₚ c → a <ₚ c) ∧ (a ≤ₚ b → b ≤ₚ c → a ≤ₚ c) ∧ (a ==ₚ b → b ==ₚ c → a ==ₚ c) ∧
      a ==ₚ a ∧ (a ==ₚ b → b ==ₚ a) := by
  simp only [vlt_iff, veq_iff, vle_iff]
  exact ⟨lt_trans, le_trans, Eq.trans, trivial, Eq.symm⟩

example : exVersion [1] none none (some ⟨"dev".toList, 3⟩) <ₚ exVersion [1, 0, 1] :=
  (C01_trans _ (exVersion [1, 0]) _).1 (by decide +kernel) (by decide +kernel)

/-- C01. `<=`, `>=`, `>` agree with `<` and `==`. -/
theorem C01_operators_agree (a b : Version) :
    (a ≤ₚ b ↔ a <ₚ b ∨ a ==ₚ b) ∧ (a ≥ₚ b ↔ a >ₚ b ∨ a ==ₚ b) ∧ (a >ₚ b ↔ b <ₚ a) ∧ (a ≥ₚ b ↔ b ≤ₚ a) := by
  simp only [vlt_iff, veq_iff, vle_iff, vgt_iff, vge_iff]
  exact ⟨le_iff_lt_or_eq, by rw [le_iff_lt_or_eq, eq_comm], trivial, trivial⟩

example : exVersion [1, 0] ≤ₚ exVersion [1] ∧ exVersion [1, 0] ≥ₚ exVersion [1] ∧ exVersion [2] ≥ₚ exVersion [1] ∧ exVersion [2] >ₚ exVersion [1] := by
  decide +kernel

/-- C01. Equal versions are interchangeable in comparisons. -/
theorem C01_congr (a b c : Version) (h : a ==ₚ b) : (a <ₚ c ↔ b <ₚ c) ∧ (c <ₚ a ↔ c <ₚ b) ∧ (a ==ₚ c ↔ b ==ₚ c) := by
  simp only [vlt_iff, veq_iff] at *
  rw [h]; exact ⟨Iff.rfl, Iff.rfl, Iff.rfl⟩

example : exVersion [1, 2] ==ₚ exVersion [1, 2, 0] := by decide +kernel
example : exVersion [1, 2] (pre := some ⟨"rc".toList, 1⟩) <ₚ exVersion [1, 2, 0] := by decide +kernel

/-! ## C02: equality -/

/-- C02. `a == b` iff same epoch, same release read with endless zeros, same tags and local segment. -/
theorem C02_eq_iff (a b : Version) (ha : a.Valid) (hb : b.Valid) :
    a ==ₚ b ↔ a.epoch.value = b.epoch.value ∧ (∀ i, a.release.part i = b.release.part i) ∧ a.pre = b.pre ∧
      a.post = b.post ∧ a.dev = b.dev ∧ a.local_ = b.local_ := by
  rw [veq_iff, key_eq_iff, compareParts_eq_iff _ _ ha.release hb.release]

example : exVersion [1, 0] none (some ⟨"post".toList, 2⟩) ==ₚ exVersion [1] none (some ⟨"post".toList, 2⟩) :=
  (C02_eq_iff _ _ (by decide +kernel) (by decide +kernel)).2 (by decide +kernel)
example : ¬ exVersion [1, 0] none (some ⟨"post".toList, 2⟩) ==ₚ exVersion [1] none (some ⟨"rev".toList, 2⟩) := by decide +kernel

/-- C01/C02. Releases compare like the sequences of their parts with endless zeros (no negative parts). -/
theorem C02_release_order (a b : Release) (ha : a.Valid) (hb : b.Valid) (hna : a.NonNeg) (hnb : b.NonNeg) :
    (PyCmp.lt a b = true ↔ a.Below b) ∧ (PyCmp.eq a b = true ↔ ∀ i, a.part i = b.part i) := by
  rw [CmpKey.release.lt, CmpKey.release.eq]
  exact ⟨compareParts_lt_iff a b ha hb hna hnb, compareParts_eq_iff a b ha hb⟩

example : (⟨[1, 2]⟩ : Release).Below ⟨[1, 10, 0]⟩ :=
  (C02_release_order _ _ (by decide +kernel) (by decide +kernel) (by decide +kernel) (by decide +kernel)).1.1 (by decide +kernel)

/-- With negative parts the order is not that of the padded sequences: `1.-1 > 1` although `-1 < 0`. -/
theorem C02_negative_parts : ∃ a b : Release, a.Valid ∧ b.Valid ∧ a.Below b ∧ PyCmp.gt a b = true :=
  ⟨⟨[1, -1]⟩, ⟨[1]⟩, by simp [Release.Valid], by simp [Release.Valid],
    ⟨1, by intro j hj; have : j = 0 := by omega
           subst this; rfl, by decide⟩, by decide +kernel⟩

example : (exVersion [1, 0] (dev := some ⟨"dev".toList, 3⟩)).Valid :=
  ⟨by simp [exVersion], by simp [exVersion], by simp [exVersion],
    by intro t h; simp only [exVersion, Option.some.injEq] at h; subst h; decide +kernel, by simp [exVersion]⟩
example : exVersion [1, 0] (dev := some ⟨"dev".toList, 3⟩) ==ₚ exVersion [1] (dev := some ⟨"dev".toList, 3⟩) := by
  decide +kernel
example : (⟨[1, 9, 0]⟩ : Release).Below ⟨[1, 10]⟩ :=
  ⟨1, by intro j hj; obtain rfl : j = 0 := by omega
         rfl, by decide⟩

/-! ## C03: stages of one release -/

/-- Same epoch, same release up to trailing zeros. -/
structure SameRelease (a b : Version) : Prop where
  left : a.Valid
  right : b.Valid
  epoch : a.epoch.value = b.epoch.value
  release : ∀ i, a.release.part i = b.release.part i

instance (a b : Version) : Decidable (SameRelease a b) := decidable_of_iff
  (a.Valid ∧ b.Valid ∧ a.epoch.value = b.epoch.value ∧ ∀ i, a.release.part i = b.release.part i)
  ⟨fun ⟨a, b, c, d⟩ => ⟨a, b, c, d⟩, fun ⟨a, b, c, d⟩ => ⟨a, b, c, d⟩⟩

theorem SameRelease.compareParts {a b : Version} (h : SameRelease a b) :
    a.release.compareParts = b.release.compareParts :=
  (compareParts_eq_iff _ _ h.left.release h.right.release).2 h.release

/-- The stages of a release, in order. -/
def Version.stage (v : Version) : Nat :=
  match v.pre, v.post, v.dev with
  | none, none, some _ => 0
  | some p, _, _ =>
    if p.phase = "alpha".toList then 1 else if p.phase = "beta".toList then 2
    else if p.phase = "candidate".toList then 3 else if p.phase = "preview".toList then 4 else 5
  | none, none, none => 6
  | none, some p, _ => if p.phase = "post".toList then 7 else 8

theorem phase_order : strKey "alpha".toList < strKey "beta".toList ∧ strKey "beta".toList < strKey "candidate".toList ∧
    strKey "candidate".toList < strKey "preview".toList ∧ strKey "preview".toList < strKey "rc".toList ∧
    strKey "post".toList < strKey "rev".toList := by decide +kernel

theorem pre_stage_lt {a b : Tag} (ha : a.Valid .pre) (hb : b.Valid .pre)
    (h : Version.stage (exVersion [] (pre := some a)) < Version.stage (exVersion [] (pre := some b))) :
    strKey a.phase < strKey b.phase := by
  have key : ∀ p ∈ TagClass.pre.phases.map String.toList, ∀ q ∈ TagClass.pre.phases.map String.toList,
      Version.stage (exVersion [] (pre := some ⟨p, 0⟩)) < Version.stage (exVersion [] (pre := some ⟨q, 0⟩)) →
      strKey p < strKey q := by decide +kernel
  exact key _ (valid_mem ha) _ (valid_mem hb) h

theorem post_stage_lt {a b : Tag} (ha : a.Valid .post) (hb : b.Valid .post)
    (h : Version.stage (exVersion [] (post := some a)) < Version.stage (exVersion [] (post := some b))) :
    strKey a.phase < strKey b.phase := by
  have key : ∀ p ∈ TagClass.post.phases.map String.toList, ∀ q ∈ TagClass.post.phases.map String.toList,
      Version.stage (exVersion [] (post := some ⟨p, 0⟩)) < Version.stage (exVersion [] (post := some ⟨q, 0⟩)) →
      strKey p < strKey q := by decide +kernel
  exact key _ (valid_mem ha) _ (valid_mem hb) h

theorem stage_pre_bounds (p : Tag) (q d : Option Tag) (e r l) :
    1 ≤ Version.stage ⟨e, r, some p, q, d, l⟩ ∧ Version.stage ⟨e, r, some p, q, d, l⟩ ≤ 5 := by
  simp only [Version.stage]; (repeat' split) <;> omega

theorem stage_dev (d : Tag) (e r l) : Version.stage ⟨e, r, none, none, some d, l⟩ = 0 := rfl
theorem stage_final (e r l) : Version.stage ⟨e, r, none, none, none, l⟩ = 6 := rfl

theorem stage_post_bounds (q : Tag) (d : Option Tag) (e r l) : 7 ≤ Version.stage ⟨e, r, none, some q, d, l⟩ := by
  simp only [Version.stage]; split <;> omega

/-- C03. Within one epoch and release, an earlier stage is below a later one, whatever the values, the further tags
and the local segments: dev < alpha < beta < candidate < preview < rc < final < post < rev. -/
theorem C03_stage_order (a b : Version) (h : SameRelease a b) (hs : a.stage < b.stage) : a <ₚ b := by
  rw [vlt_iff, key_lt_same a b h.epoch h.compareParts]
  obtain ⟨ea, ra, pa, qa, da, la⟩ := a
  obtain ⟨eb, rb, pb, qb, db, lb⟩ := b
  have hpa := h.left.pre; have hpb := h.right.pre
  have hqa := h.left.post; have hqb := h.right.post
  simp only at hpa hpb hqa hqb ⊢
  cases pa with
  | some p =>
    left
    cases pb with
    | some p' =>
      simp only [Version.comparePre, extKey_fin_lt_fin, tagKey_lt]
      left
      exact pre_stage_lt (hpa p rfl) (hpb p' rfl) hs
    | none =>
      have hb1 := stage_pre_bounds p qa da ea ra la
      cases qb with
      | none => cases db with
        | none => simp [Version.comparePre, extKey_fin_lt_posInf]
        | some d => rw [stage_dev] at hs; omega
      | some q => simp [Version.comparePre, extKey_fin_lt_posInf]
  | none => cases qa with
    | none => cases da with
      | some d => cases pb with
        | some p' => left; simp [Version.comparePre, extKey_negInf_lt_fin]
        | none =>
          left
          cases qb with
          | none => cases db with
            | none => simp [Version.comparePre, extKey_negInf_lt_posInf]
            | some d' => simp only [stage_dev] at hs; omega
          | some q => simp [Version.comparePre, extKey_negInf_lt_posInf]
      | none => cases pb with
        | some p' =>
          have := stage_pre_bounds p' qb db eb rb lb
          rw [stage_final] at hs; omega
        | none => cases qb with
          | none => cases db with
            | none => simp only [stage_final] at hs; omega
            | some d => rw [stage_dev] at hs; omega
          | some q =>
            right
            refine ⟨by simp [Version.comparePre], Or.inl ?_⟩
            simp [Version.comparePost, extKey_negInf_lt_fin]
    | some q => cases pb with
      | some p' =>
        have h1 := stage_pre_bounds p' qb db eb rb lb
        have h2 := stage_post_bounds q da ea ra la
        omega
      | none => cases qb with
        | none =>
          have h2 := stage_post_bounds q da ea ra la
          cases db <;> simp only [stage_dev, stage_final] at hs <;> omega
        | some q' =>
          right
          refine ⟨by simp [Version.comparePre], Or.inl ?_⟩
          simp only [Version.comparePost, extKey_fin_lt_fin, tagKey_lt]
          exact Or.inl (post_stage_lt (hqa q rfl) (hqb q' rfl) hs)

example : exVersion [1] none none (some ⟨"dev".toList, 9⟩) <ₚ exVersion [1, 0] (some ⟨"alpha".toList, 0⟩) none (some ⟨"dev".toList, 1⟩) ∧
    exVersion [1] none (some ⟨"post".toList, 9⟩) <ₚ exVersion [1] none (some ⟨"rev".toList, 1⟩) :=
  ⟨C03_stage_order _ _ (by decide +kernel) (by decide +kernel), C03_stage_order _ _ (by decide +kernel) (by decide +kernel)⟩

/-- C03. Same pre phase: the numbers decide, whatever follows. -/
theorem C03_pre_number (a b : Version) (h : SameRelease a b) (p q : Tag) (ha : a.pre = some p) (hb : b.pre = some q)
    (hp : p.phase = q.phase) (hv : p.value < q.value) : a <ₚ b := by
  rw [vlt_iff, key_lt_same a b h.epoch h.compareParts, ha, hb]
  left
  simp only [Version.comparePre, extKey_fin_lt_fin, tagKey_lt]
  exact Or.inr ⟨by rw [hp], hv⟩

example : exVersion [1] (some ⟨"beta".toList, 9⟩) (some ⟨"post".toList, 3⟩) <ₚ exVersion [1, 0] (some ⟨"beta".toList, 10⟩) none (some ⟨"dev".toList, 0⟩) :=
  C03_pre_number _ _ (by decide +kernel) _ _ rfl rfl rfl (by decide)

/-- C03. Same pre tag (or none in both, and a post tag in both), same post phase: the post numbers decide. -/
theorem C03_post_number (a b : Version) (h : SameRelease a b) (hpre : a.pre = b.pre) (p q : Tag)
    (ha : a.post = some p) (hb : b.post = some q) (hp : p.phase = q.phase) (hv : p.value < q.value) : a <ₚ b := by
  rw [vlt_iff, key_lt_same a b h.epoch h.compareParts, ha, hb, hpre]
  right
  refine ⟨by cases b.pre <;> simp [Version.comparePre], Or.inl ?_⟩
  simp only [Version.comparePost, extKey_fin_lt_fin, tagKey_lt]
  exact Or.inr ⟨by rw [hp], hv⟩

example : exVersion [1] none (some ⟨"post".toList, 9⟩) <ₚ exVersion [1] none (some ⟨"post".toList, 10⟩) (some ⟨"dev".toList, 0⟩) :=
  C03_post_number _ _ (by decide +kernel) rfl _ _ rfl rfl rfl (by decide)

/-- C03. A post release of a pre-release is above that pre-release, with or without dev and local. -/
theorem C03_post_of_pre (a b : Version) (h : SameRelease a b) (p : Tag) (ha : a.pre = some p) (hb : b.pre = some p)
    (hpa : a.post = none) (hpb : b.post ≠ none) : a <ₚ b := by
  rw [vlt_iff, key_lt_same a b h.epoch h.compareParts, ha, hb]
  right
  refine ⟨by simp [Version.comparePre], Or.inl ?_⟩
  cases hq : b.post with
  | none => exact absurd hq hpb
  | some q => rw [hpa]; simp [Version.comparePost, extKey_negInf_lt_fin]

example : exVersion [1] (some ⟨"rc".toList, 1⟩) <ₚ exVersion [1] (some ⟨"rc".toList, 1⟩) (some ⟨"post".toList, 0⟩) (some ⟨"dev".toList, 0⟩) :=
  C03_post_of_pre _ _ (by decide +kernel) _ rfl rfl rfl (by simp [exVersion])

/-- C03. A dev release of a pre or post release is below that release (with or without local segments). Being above
everything before it is `C03_stage_order`, `C03_pre_number`, `C03_post_number` and `C03_post_of_pre`, which do not
look at the dev tag. -/
theorem C03_dev_below (a b : Version) (h : SameRelease a b) (hpre : a.pre = b.pre) (hpost : a.post = b.post)
    (hp : a.pre ≠ none ∨ a.post ≠ none) (ha : a.dev ≠ none) (hb : b.dev = none) : a <ₚ b := by
  rw [vlt_iff, key_lt_same a b h.epoch h.compareParts, ← hpre, ← hpost, hb]
  right
  refine ⟨?_, Or.inr ⟨rfl, Or.inl ?_⟩⟩
  · cases hq : a.pre with
    | some p => simp [Version.comparePre]
    | none => cases hq' : a.post with
      | some q => simp [Version.comparePre]
      | none => simp [hq, hq'] at hp
  · cases hd : a.dev with
    | none => exact absurd hd ha
    | some d => simp [Version.compareDev, extKey_fin_lt_posInf]

example : exVersion [1] none (some ⟨"post".toList, 1⟩) (some ⟨"dev".toList, 7⟩) <ₚ exVersion [1, 0] none (some ⟨"post".toList, 1⟩) :=
  C03_dev_below _ _ (by decide +kernel) rfl rfl (by simp [exVersion]) (by simp [exVersion]) rfl

/-- C03. Dev numbers decide between dev releases of the same thing. -/
theorem C03_dev_number (a b : Version) (h : SameRelease a b) (hpre : a.pre = b.pre) (hpost : a.post = b.post)
    (d e : Tag) (ha : a.dev = some d) (hb : b.dev = some e) (hv : d.value < e.value) : a <ₚ b := by
  have hd : d.phase = e.phase := by
    have h1 := valid_mem (h.left.dev d ha)
    have h2 := valid_mem (h.right.dev e hb)
    simp only [TagClass.phases, List.map_cons, List.map_nil, List.mem_singleton] at h1 h2
    rw [h1, h2]
  rw [vlt_iff, key_lt_same a b h.epoch h.compareParts, ← hpre, ← hpost, ha, hb]
  right
  refine ⟨rfl, Or.inr ⟨rfl, Or.inl ?_⟩⟩
  simp only [Version.compareDev, extKey_fin_lt_fin, tagKey_lt]
  exact Or.inr ⟨by rw [hd], hv⟩

example : exVersion [1] none none (some ⟨"dev".toList, 9⟩) <ₚ exVersion [1] none none (some ⟨"dev".toList, 10⟩) :=
  C03_dev_number _ _ (by decide +kernel) rfl rfl _ _ rfl rfl (by decide)

section
def rcTag : Tag := ⟨"rc".toList, 1⟩
def postTag : Tag := ⟨"post".toList, 1⟩
def devTag : Tag := ⟨"dev".toList, 7⟩

theorem exValid (parts : List Int) (h : parts ≠ []) (pre post dev : Option Tag) (hpre : pre ∈ [none, some rcTag])
    (hpost : post ∈ [none, some postTag]) (hdev : dev ∈ [none, some devTag]) : (exVersion parts pre post dev).Valid := by
  refine ⟨h, ?_, ?_, ?_, by simp [exVersion]⟩
  · intro t ht; simp [exVersion] at ht hpre; rw [ht] at hpre; simp at hpre; subst hpre; decide +kernel
  · intro t ht; simp [exVersion] at ht hpost; rw [ht] at hpost; simp at hpost; subst hpost; decide +kernel
  · intro t ht; simp [exVersion] at ht hdev; rw [ht] at hdev; simp at hdev; subst hdev; decide +kernel

/-- Non-trivial case for the C03 theorems: `1rc1.dev7` and `1.0.post1`. -/
theorem exSameRelease : SameRelease (exVersion [1] (some rcTag) none (some devTag)) (exVersion [1, 0] none (some postTag)) :=
  ⟨exValid _ (by simp) _ _ _ (by simp) (by simp) (by simp), exValid _ (by simp) _ _ _ (by simp) (by simp) (by simp), rfl,
    by intro i; match i with
      | 0 => rfl
      | 1 => rfl
      | i + 2 => rfl⟩
example : exVersion [1] (some rcTag) none (some devTag) <ₚ exVersion [1, 0] none (some postTag) :=
  C03_stage_order _ _ exSameRelease (by decide +kernel)
example : exVersion [1] (some rcTag) none (some devTag) <ₚ exVersion [1] (some rcTag) none none :=
  C03_dev_below _ _ ⟨exSameRelease.left, exValid _ (by simp) _ _ _ (by simp) (by simp) (by simp), rfl, fun _ => rfl⟩
    rfl rfl (by simp [exVersion]) (by simp [exVersion]) rfl
end

/-! ## C04: local segments -/

/-- One local part is below another: numbers by value, strings below all numbers, strings by code points. -/
inductive LocalPart.Below : LocalPart → LocalPart → Prop
  | int (m n : Int) (h : m < n) : Below (.int m) (.int n)
  | strInt (s : PyStr) (n : Int) : Below (.str s) (.int n)
  | str (s t : PyStr) (h : s.map Char.toNat < t.map Char.toNat) : Below (.str s) (.str t)

/-- Same up to the local segment. -/
structure SamePublic (a b : Version) : Prop extends SameRelease a b where
  pre : a.pre = b.pre
  post : a.post = b.post
  dev : a.dev = b.dev

instance (a b : Version) : Decidable (SamePublic a b) := decidable_of_iff
  (SameRelease a b ∧ a.pre = b.pre ∧ a.post = b.post ∧ a.dev = b.dev)
  ⟨fun ⟨a, b, c, d⟩ => ⟨a, b, c, d⟩, fun ⟨a, b, c, d⟩ => ⟨a, b, c, d⟩⟩

theorem SamePublic.lt_iff {a b : Version} (h : SamePublic a b) :
    a.key < b.key ↔ extKey Local.key (Version.compareLocal a.local_) < extKey Local.key (Version.compareLocal b.local_) := by
  rw [key_lt_same a b h.epoch h.compareParts, h.pre, h.post, h.dev]
  simp

/-- C04. Adding a local segment makes the version greater. -/
theorem C04_local_above (a b : Version) (h : SamePublic a b) (ha : a.local_ = none) (hb : b.local_ ≠ none) : a <ₚ b := by
  rw [vlt_iff, h.lt_iff, ha]
  cases hl : b.local_ with
  | none => exact absurd hl hb
  | some l => simp [Version.compareLocal, extKey_negInf_lt_fin]

example : exVersion [1] (some rcTag) <ₚ exVersion [1, 0] (some rcTag) none none (some ⟨[.str "a".toList]⟩) :=
  C04_local_above _ _ (by decide +kernel) rfl (by simp [exVersion])

theorem below_key {x y : LocalPart} (h : x.Below y) : localPartKey x < localPartKey y := by
  unfold localPartKey
  rw [Prod.Lex.toLex_lt_toLex]
  cases h with
  | int m n h => left; exact (extKey_fin_lt_fin _ _ _).2 h
  | strInt s n => left; exact extKey_negInf_lt_fin _ _
  | str s t h => exact Or.inr ⟨rfl, h⟩

theorem append_lt_append {K : Type} [LinearOrder K] (p : List K) {xs ys : List K} (h : xs < ys) : p ++ xs < p ++ ys := by
  induction p with
  | nil => simpa
  | cons x p ih => rw [List.cons_append, List.cons_append, List.cons_lt_cons_iff]; exact Or.inr ⟨rfl, ih⟩

/-- C04. The first different local part decides. -/
theorem C04_first_difference (a b : Version) (h : SamePublic a b) (p s t : List LocalPart) (x y : LocalPart)
    (ha : a.local_ = some ⟨p ++ x :: s⟩) (hb : b.local_ = some ⟨p ++ y :: t⟩) (hxy : x.Below y) : a <ₚ b := by
  rw [vlt_iff, h.lt_iff, ha, hb]
  simp only [Version.compareLocal, extKey_fin_lt_fin, Local.key, List.map_append, List.map_cons]
  apply append_lt_append
  rw [List.cons_lt_cons_iff]
  exact Or.inl (below_key hxy)

example : exVersion [1] none none none (some ⟨[.int 9, .int 1]⟩) <ₚ exVersion [1] none none none (some ⟨[.int 10]⟩) :=
  C04_first_difference _ _ (by decide +kernel) [] _ _ _ _ rfl rfl (.int 9 10 (by decide))

/-- C04. A proper prefix is below. -/
theorem C04_prefix (a b : Version) (h : SamePublic a b) (p t : List LocalPart) (ht : t ≠ [])
    (ha : a.local_ = some ⟨p⟩) (hb : b.local_ = some ⟨p ++ t⟩) : a <ₚ b := by
  rw [vlt_iff, h.lt_iff, ha, hb]
  simp only [Version.compareLocal, extKey_fin_lt_fin, Local.key, List.map_append]
  conv => lhs; rw [← List.append_nil (List.map localPartKey p)]
  apply append_lt_append
  cases t with
  | nil => exact absurd rfl ht
  | cons x t => simp

example : exVersion [1] none none none (some ⟨[.int 9]⟩) <ₚ exVersion [1] none none none (some ⟨[.int 9, .str "a".toList]⟩) :=
  C04_prefix _ _ (by decide +kernel) [.int 9] [.str "a".toList] (by simp) rfl rfl

/-- C04. Two different local parts are always comparable, so the three rules decide every pair of segments. -/
theorem C04_parts_total (x y : LocalPart) : x.Below y ∨ x = y ∨ y.Below x := by
  cases x with
  | int m => cases y with
    | int n =>
      rcases lt_trichotomy m n with h | h | h
      · exact Or.inl (.int _ _ h)
      · exact Or.inr (Or.inl (by rw [h]))
      · exact Or.inr (Or.inr (.int _ _ h))
    | str t => exact Or.inr (Or.inr (.strInt _ _))
  | str s => cases y with
    | int n => exact Or.inl (.strInt _ _)
    | str t =>
      rcases lt_trichotomy (s.map Char.toNat) (t.map Char.toNat) with h | h | h
      · exact Or.inl (.str _ _ h)
      · exact Or.inr (Or.inl (by rw [strKey_injective h]))
      · exact Or.inr (Or.inr (.str _ _ h))

example : (LocalPart.str "z".toList).Below (.int 0) ∧ (LocalPart.int 9).Below (.int 10) ∧ (LocalPart.str "Z".toList).Below (.str "a".toList) :=
  ⟨.strInt _ _, .int _ _ (by decide), .str _ _ (by decide +kernel)⟩

/-- Non-trivial case: `1+ubuntu.x` and `1.0+ubuntu.2`. -/
example : { exVersion [1] with local_ := some ⟨[.str "ubuntu".toList, .str "x".toList]⟩ } <ₚ
    { exVersion [1, 0] with local_ := some ⟨[.str "ubuntu".toList, .int 2]⟩ } :=
  C04_first_difference _ _ ⟨⟨⟨by simp [exVersion], by simp [exVersion], by simp [exVersion], by simp [exVersion],
    by simp⟩, ⟨by simp [exVersion], by simp [exVersion], by simp [exVersion], by simp [exVersion], by simp⟩, rfl,
    by intro i; match i with
      | 0 => rfl
      | 1 => rfl
      | i + 2 => rfl⟩, rfl, rfl, rfl⟩ [.str "ubuntu".toList] [] [] _ _ rfl rfl (.strInt _ _)

/-! ## C06: reading and writing parts -/

/-- C06. `set_at` at a non-negative index. -/
theorem C06_set_at (v : Version) (hv : v.Valid) (i : Nat) (x : Int) :
    ∃ w, v.setAt i x = .ok w ∧ (∀ j, w.release.part j = if j = i then x else v.release.part j) ∧
      w.precision = max v.precision (i + 1) ∧ w = { v with release := w.release } := by
  obtain ⟨q, hq, hp, hg⟩ := setAt_nat v.release hv.release i x
  exact ⟨v.setRelease q, by simp [Version.setAt, hq, bind, Except.bind], hg, hp, rfl⟩

example : (exVersion [1, 2] (some rcTag)).Valid ∧ (exVersion [1, 2] (some rcTag)).setAt 0 7 = .ok (exVersion [7, 2] (some rcTag)) := by decide +kernel

/-- C06. `get_at` at a non-negative index: the part, or the default beyond the end. -/
theorem C06_get_at (v : Version) (i : Nat) (d : Int) :
    v.getAt i d = .ok (if i < v.precision then v.release.part i else d) := getAt_nat v.release i d

example : (exVersion [1, 2]).getAt 1 5 = .ok 2 ∧ (exVersion [1, 2]).getAt 2 5 = .ok 5 := by decide +kernel

/-- C06. What was written is read back, and nothing else changes. -/
theorem C06_get_set (v w : Version) (hv : v.Valid) (i : Nat) (x : Int) (h : v.setAt i x = .ok w) (j : Nat) :
    w.getAt j = if j = i then .ok x else v.getAt j := by
  obtain ⟨w', h1, h2, h3, -⟩ := C06_set_at v hv i x
  rw [h1] at h; injection h with h; subst h
  rw [C06_get_at, C06_get_at, h2, h3]
  by_cases hj : j = i
  · subst hj; simp
  · simp only [hj, if_false]
    congr 1
    by_cases h4 : j < v.precision
    · simp [h4]
    · simp only [h4, if_false]
      have : v.release.part j = 0 := by
        unfold Release.part; unfold Version.precision Release.precision at h4
        simp [List.getElem?_eq_none (by omega : v.release.parts.length ≤ j)]
      simp [this]

example : (exVersion [1, 2, 0, 9]).getAt 3 = .ok 9 ∧ (exVersion [1, 2, 0, 9]).getAt 1 = (exVersion [1, 2]).getAt 1 :=
  ⟨C06_get_set (exVersion [1, 2]) _ (by decide +kernel) 3 9 (by decide +kernel) 3,
    C06_get_set (exVersion [1, 2]) _ (by decide +kernel) 3 9 (by decide +kernel) 1⟩

/-- C06. The unchecked functions fail with `IndexError` exactly when out of bounds, negative indices count from the
end. -/
theorem C06_unchecked (v : Version) (i : Int) (x : Int) :
    (v.getAtUnchecked i = .error .indexError ↔ ¬ (-(v.precision : Int) ≤ i ∧ i < v.precision)) ∧
    (v.setAtUnchecked i x = .error .indexError ↔ ¬ (-(v.precision : Int) ≤ i ∧ i < v.precision)) := by
  unfold Version.getAtUnchecked Version.setAtUnchecked Release.getAtUnchecked Release.setAtUnchecked pyGet pySet
    Version.precision Release.precision
  have key : pyIndex v.release.parts.length i = none ↔
      ¬ (-(v.release.parts.length : Int) ≤ i ∧ i < v.release.parts.length) := by
    unfold pyIndex; (repeat' split) <;> simp <;> omega
  cases hi : pyIndex v.release.parts.length i with
  | none => simp [← key, hi, bind, Except.bind]
  | some k =>
    have hk : k < v.release.parts.length := by
      unfold pyIndex at hi; (repeat' split at hi) <;> simp at hi <;> omega
    have : v.release.parts.set k x ≠ [] := by
      rw [← List.length_pos_iff, List.length_set]; omega
    have hc : Release.create (v.release.parts.set k x) = .ok ⟨v.release.parts.set k x⟩ := create_ok this
    have hk' : v.release.parts[k]? = some v.release.parts[k] := List.getElem?_eq_getElem hk
    have hkey := key.not.1 (by simp [hi])
    rw [not_not] at hkey
    simp [hkey, hc, hk', bind, Except.bind]

example : (exVersion [1, 2]).getAtUnchecked (-2) = .ok 1 ∧ (exVersion [1, 2]).getAtUnchecked 2 = .error .indexError ∧
    (exVersion [1, 2]).setAtUnchecked (-3) 9 = .error .indexError := by decide +kernel

example : (exVersion [1, 2]).setAt 4 9 = .ok (exVersion [1, 2, 0, 0, 9]) := by decide +kernel
example : (exVersion [1, 2]).setAt (-1) 9 = .ok (exVersion [1, 9]) := by decide +kernel
example : (exVersion [1, 2]).setAt (-3) 9 = .error .indexError := by decide +kernel

/-! ## C07: bumping a release part -/

/-- C07. `next_at`: parts before `i` kept, part `i` incremented, zeros after. -/
theorem C07_next_at (r : Release) (h : r.Valid) (i : Nat) :
    ∃ q, r.nextAt i = .ok q ∧ q.precision = max r.precision (i + 1) ∧
      (∀ j < i, q.part j = r.part j) ∧ q.part i = r.part i + 1 ∧ (∀ j > i, q.part j = 0) := by
  obtain ⟨q, h1, h2, h3⟩ := nextAt_nat r h i
  refine ⟨q, h1, h2, fun j hj => by rw [h3, if_pos hj], by rw [h3]; simp, fun j hj => ?_⟩
  rw [h3, if_neg (by omega), if_neg (by omega)]

example : (⟨[1, 2]⟩ : Release).nextAt 3 = .ok ⟨[1, 2, 0, 1]⟩ ∧ (⟨[1, 2, 3]⟩ : Release).nextAt 0 = .ok ⟨[2, 0, 0]⟩ := by decide +kernel

/-- C07. The bumped release is above every release with the same parts up to `i`, in particular the original. -/
theorem C07_next_at_above (r q s : Release) (h : r.Valid) (hs : s.Valid) (hn : s.NonNeg) (i : Nat)
    (hq : r.nextAt i = .ok q) (hsr : ∀ j ≤ i, s.part j = r.part j) : PyCmp.lt s q = true := by
  obtain ⟨q', h1, h2, h3⟩ := nextAt_nat r h i
  rw [h1] at hq; injection hq with hq; subst hq
  rw [CmpKey.release.lt]
  refine compareParts_lt_of_below s q' hs ?_ hn ⟨i, fun j hj => ?_, ?_⟩
  · rw [← precision_pos_iff]; omega
  · rw [h3, if_pos hj, hsr j (by omega)]
  · rw [h3, hsr i (le_refl i), if_neg (by omega), if_pos rfl]; omega

example : PyCmp.lt (⟨[1, 2, 99]⟩ : Release) ⟨[1, 3]⟩ = true :=
  C07_next_at_above ⟨[1, 2]⟩ ⟨[1, 3]⟩ ⟨[1, 2, 99]⟩ (by decide) (by decide) (by decide) 1 (by decide +kernel) (by decide +kernel)

/-- C07. It is the least such release: whatever is above the original and differs from it at or before `i` is at least
the bumped release. -/
theorem C07_next_at_least (r q s : Release) (h : r.Valid) (hs : s.Valid) (hn : s.NonNeg) (hr : r.NonNeg) (i : Nat)
    (hq : r.nextAt i = .ok q) (hrs : PyCmp.lt r s = true) (hd : ∃ j ≤ i, s.part j ≠ r.part j) : PyCmp.le q s = true := by
  obtain ⟨q', h1, h2, h3⟩ := nextAt_nat r h i
  rw [h1] at hq; injection hq with hq; subst hq
  have hqv : q'.parts ≠ [] := by rw [← precision_pos_iff]; omega
  have hqn : q'.NonNeg := by
    intro x hx
    obtain ⟨k, hk, rfl⟩ := List.getElem_of_mem hx
    have e : q'.part k = q'.parts[k] := by simp [Release.part, hk]
    rw [← e, h3]
    have hge : ∀ j, 0 ≤ r.part j := by
      intro j
      unfold Release.part
      rw [List.getD_eq_getElem?_getD]
      cases hj : r.parts[j]? with
      | none => simp
      | some y => exact hr y (List.mem_of_getElem? hj)
    have := hge k; have := hge i
    split
    · omega
    · split <;> omega
  rw [CmpKey.release.le, ← not_lt]
  rw [CmpKey.release.lt, compareParts_lt_iff r s h hs hr hn] at hrs
  rw [compareParts_lt_iff s q' hs hqv hn hqn]
  rintro ⟨k, hk1, hk2⟩
  obtain ⟨m, hm1, hm2⟩ := hrs
  obtain ⟨j, hj1, hj2⟩ := hd
  have hmj : m ≤ i := by
    by_contra hc
    exact hj2 (hm1 j (by omega)).symm
  -- q' agrees with r before i and is r + 1 at i, so s ≥ q' at the first difference
  rcases Nat.lt_trichotomy k m with hlt | rfl | hgt
  · have : s.part k = r.part k := (hm1 k hlt).symm
    rw [h3, if_pos (by omega)] at hk2; omega
  · rw [h3] at hk2
    split at hk2
    · omega
    · split at hk2
      · subst_vars; omega
      · omega
  · have := hk1 m hgt
    rw [h3] at this
    split at this
    · omega
    · have hmi : m = i := by omega
      rw [h3, if_neg (by omega), if_neg (by omega)] at hk2
      have : 0 ≤ s.part k := by
        unfold Release.part
        rw [List.getD_eq_getElem?_getD]
        cases hj : s.parts[k]? with
        | none => simp
        | some y => exact hn y (List.mem_of_getElem? hj)
      omega

example : PyCmp.le (⟨[1, 3, 0, 0]⟩ : Release) ⟨[1, 3]⟩ = true :=
  C07_next_at_least ⟨[1, 2, 3, 4]⟩ _ _ (by decide +kernel) (by decide +kernel) (by decide +kernel) (by decide +kernel) 1
    (by decide +kernel) (by decide +kernel) ⟨1, by decide, by decide +kernel⟩

example : (⟨[1, 2, 3, 4]⟩ : Release).nextAt 1 = .ok ⟨[1, 3, 0, 0]⟩ := by decide +kernel
example : PyCmp.lt (⟨[1, 2, 99]⟩ : Release) ⟨[1, 3, 0, 0]⟩ = true :=
  C07_next_at_above ⟨[1, 2, 3, 4]⟩ _ _ (by simp [Release.Valid]) (by simp [Release.Valid])
    (by simp [Release.NonNeg]) 1 (by decide +kernel) (by decide +kernel)

/-! ## C08: to_semantic -/

theorem nextAt_eq_parts {r q : Release} (h : r.Valid) {i : Nat} (hq : r.nextAt i = .ok q) : q.Valid := by
  obtain ⟨q', h1, h2, -⟩ := nextAt_nat r h i
  rw [h1] at hq; injection hq with hq; subst hq
  show q'.parts ≠ []
  rw [← precision_pos_iff]; omega

/-- C08. `to_semantic`. -/
theorem C08_to_semantic (v : Version) (hv : v.Valid) (hn : v.release.NonNeg) :
    ∃ w, v.toSemantic = .ok w ∧ w.precision = 3 ∧ v ≤ₚ w ∧ (v.precision ≤ 3 → v ==ₚ w) ∧ (3 < v.precision → v <ₚ w) ∧
      w = { v with release := w.release } := by
  have hv0 := hv.release
  unfold Version.toSemantic Release.toSemantic
  by_cases h : 3 < v.precision
  · have h3 : v.release.hasAt 3 = true := by
      unfold Release.hasAt; unfold Version.precision at h; simp only [gt_iff_lt, decide_eq_true_eq]; omega
    obtain ⟨q, h1, h2, hg⟩ := nextAt_nat v.release hv.release 2
    have h1' : v.release.nextPatch = .ok q := h1
    have hs : q.slice 3 = .ok ⟨q.parts.take 3⟩ := by
      have := slice_nat q 2
      rw [show increment ((2 : Nat) : Int) = 3 from rfl] at this
      rw [this, create_ok]
      rw [← List.length_pos_iff, List.length_take]
      unfold Release.precision at h2; omega
    have hlen : (q.parts.take 3).length = 3 := by
      rw [List.length_take]; unfold Release.precision at h2; omega
    refine ⟨{ v with release := ⟨q.parts.take 3⟩ }, ?_, hlen, ?_⟩
    · simp [h3, h1', hs, bind, Except.bind]
    have hlt : v.key < ({ v with release := ⟨q.parts.take 3⟩ } : Version).key := by
      rw [key_lt_iff]
      refine Or.inr ⟨rfl, Or.inl ?_⟩
      apply compareParts_lt_of_below _ _ hv0 _ hn
      · refine ⟨2, fun j hj => ?_, ?_⟩
        · have := hg j
          rw [if_pos hj] at this
          rw [← this]
          simp only [Release.part, List.getD_eq_getElem?_getD, List.getElem?_take]
          rw [if_pos (by omega)]
        · have := hg 2
          simp only [Release.part, List.getD_eq_getElem?_getD, List.getElem?_take] at this ⊢
          rw [if_pos (by omega), this]; simp; omega
      · simp only; rw [← List.length_pos_iff, hlen]; omega
    refine ⟨(vle_iff _ _).2 hlt.le, fun hc => absurd hc (by omega), fun _ => (vlt_iff _ _).2 hlt, rfl⟩
  · have h3 : v.release.hasAt 3 = false := by
      unfold Release.hasAt; unfold Version.precision at h; simp only [gt_iff_lt, decide_eq_false_iff_not]; omega
    have heq : ∃ q, (if v.release.isSemantic = true then Except.ok v.release else v.release.padTo 3) = Except.ok q ∧
        q.precision = 3 ∧ ∀ i, q.part i = v.release.part i := by
      unfold Version.precision at h
      by_cases hs : v.release.isSemantic = true
      · exact ⟨v.release, by rw [if_pos hs], by simpa [Release.isSemantic] using hs, fun _ => rfl⟩
      · obtain ⟨q, h1, h2, hg⟩ := padTo_ok v.release hv.release 3
        exact ⟨q, by rw [if_neg hs, h1], by omega, hg⟩
    obtain ⟨q, h1, h2, hg⟩ := heq
    have hqv : q.parts ≠ [] := by rw [← precision_pos_iff]; omega
    have hk : v.key = ({ v with release := q } : Version).key := by
      rw [key_eq_iff]
      exact ⟨rfl, (compareParts_eq_iff _ _ hv.release hqv).2 (fun i => (hg i).symm), rfl, rfl, rfl, rfl⟩
    refine ⟨{ v with release := q }, ?_, h2, (vle_iff _ _).2 (le_of_eq hk), fun _ => (veq_iff _ _).2 hk,
      fun hc => absurd hc h, rfl⟩
    rw [h3, if_neg (by simp), h1]; rfl

example : (exVersion [1, 2, 3, 4] (dev := some devTag)).toSemantic = .ok (exVersion [1, 2, 4] (dev := some devTag)) := by
  decide +kernel

/-! ## C09: padding -/

theorem pad_eq (v : Version) (hv : v.Valid) (q : Release) (hp : v.precision ≤ q.precision)
    (h : ∀ i, q.part i = v.release.part i) : v ==ₚ v.setRelease q := by
  rw [veq_iff, key_eq_iff]
  refine ⟨rfl, (compareParts_eq_iff _ _ hv.release ?_).2 (fun i => (h i).symm), rfl, rfl, rfl, rfl⟩
  have := (precision_pos_iff v.release).2 hv.release
  show q.parts ≠ []
  rw [← precision_pos_iff]; unfold Version.precision at hp; omega

/-- C09. Padding with zeros. -/
theorem C09_padding (v : Version) (hv : v.Valid) (n : Int) :
    (∃ w, v.padTo n = .ok w ∧ v ==ₚ w ∧ (w.precision : Int) = max (v.precision : Int) n ∧ w = { v with release := w.release }) ∧
    (∃ w, v.padToIndex n = .ok w ∧ v ==ₚ w ∧ (w.precision : Int) = max (v.precision : Int) (n + 1) ∧ w = { v with release := w.release }) ∧
    (∃ w, v.padToNext = .ok w ∧ v ==ₚ w ∧ w.precision = v.precision + 1 ∧ w = { v with release := w.release }) := by
  have key : ∀ m : Int, ∃ q, v.release.padTo m = .ok q ∧ v ==ₚ v.setRelease q ∧
      ((v.setRelease q).precision : Int) = max (v.precision : Int) m := by
    intro m
    obtain ⟨q, h1, h2, h3⟩ := padTo_ok v.release hv.release m
    exact ⟨q, h1, pad_eq v hv q (by unfold Version.precision; omega) h3, h2⟩
  refine ⟨?_, ?_, ?_⟩
  · obtain ⟨q, h1, h2, h3⟩ := key n
    exact ⟨_, by simp [Version.padTo, h1, bind, Except.bind], h2, h3, rfl⟩
  · obtain ⟨q, h1, h2, h3⟩ := key (n + 1)
    exact ⟨_, by simp [Version.padToIndex, Release.padToIndex, increment, h1, bind, Except.bind], h2, h3, rfl⟩
  · obtain ⟨q, h1, h2, h3⟩ := key (v.precision + 1)
    refine ⟨_, ?_, h2, by omega, rfl⟩
    unfold Version.precision at h1
    simp [Version.padToNext, Release.padToNext, increment, h1, bind, Except.bind]

example : (exVersion [1, 2] (dev := some devTag)).padTo 4 = .ok (exVersion [1, 2, 0, 0] (dev := some devTag)) := by
  decide +kernel

/-! ## C10: bumping a version -/

theorem final_below {v w : Version} (hc : w.release.compareParts = v.release.compareParts)
    (he : w.epoch = v.epoch) (hw : w.IsFinal) (hu : v.pre ≠ none ∨ v.dev ≠ none) :
    (¬ v.IsDevOfPost → v.key < w.key) ∧ (v.IsDevOfPost → w.key < v.key) := by
  obtain ⟨h1, h2, h3, h4⟩ := hw
  obtain ⟨ev, rv, pv, qv, dv, lv⟩ := v
  obtain ⟨ew, rw', pw, qw, dw, lw⟩ := w
  simp only [Version.IsDevOfPost] at *
  subst h1 h2 h3 h4 he
  rw [key_lt_same _ _ (by rfl) hc.symm, key_lt_same _ _ (by rfl) hc]
  constructor
  · intro hd
    cases pv with
    | some p => left; simp [Version.comparePre, extKey_fin_lt_posInf]
    | none => cases qv with
      | none => cases dv with
        | none => simp at hu
        | some d => left; simp [Version.comparePre, extKey_negInf_lt_posInf]
      | some q => cases dv with
        | none => simp at hu
        | some d => simp at hd
  · rintro ⟨hp, hq, hd⟩
    cases qv with
    | none => exact absurd rfl hq
    | some q =>
      subst hp
      right
      exact ⟨by simp [Version.comparePre], Or.inl (by simp [Version.comparePost, extKey_negInf_lt_fin])⟩

/-- The bump of every index, for stable and unstable versions. -/
theorem nextAt_spec (v : Version) (hv : v.Valid) (i : Nat) :
    ∃ w, v.nextAt i = .ok w ∧ w.IsFinal ∧ w.epoch = v.epoch ∧ w.Valid ∧
      (v.isStable = true → w.release.precision = max v.precision (i + 1) ∧
        ∀ j, w.release.part j = if j < i then v.release.part j else if j = i then v.release.part i + 1 else 0) ∧
      (v.isStable = false → w.release = v.release) := by
  unfold Version.nextAt
  cases hs : v.isStable with
  | true =>
    obtain ⟨q, h1, h2, hg⟩ := nextAt_nat v.release hv.release i
    refine ⟨(v.withoutTagsAndLocal).setRelease q, by simp [h1, bind, Except.bind], ⟨rfl, rfl, rfl, rfl⟩, rfl, ?_,
      fun _ => ⟨h2, hg⟩, fun h => by simp at h⟩
    refine ⟨?_, ?_, ?_, ?_, ?_⟩
    · show q.parts ≠ []
      rw [← precision_pos_iff]; omega
    all_goals intro t ht; simp [Version.setRelease, Version.withoutTagsAndLocal, Version.setTagsAndLocal] at ht
  | false =>
    refine ⟨(v.withoutTagsAndLocal).setRelease v.release, by simp [bind, Except.bind], ⟨rfl, rfl, rfl, rfl⟩, rfl, ?_,
      fun h => by simp at h, fun _ => rfl⟩
    refine ⟨hv.release, ?_, ?_, ?_, ?_⟩
    all_goals intro t ht; simp [Version.setRelease, Version.withoutTagsAndLocal, Version.setTagsAndLocal] at ht

theorem stable_iff (v : Version) : v.isStable = true ↔ v.pre = none ∧ v.dev = none := by
  simp [Version.isStable, Version.isUnstable, Version.isPreRelease, Version.isDevRelease]

/-- C10. Bumping at any non-negative index: the result has no tags and no local segment; it is greater than the original
unless that is a dev release of a post release; then it is smaller. -/
theorem C10_next_at (v : Version) (hv : v.Valid) (hn : v.release.NonNeg) (i : Nat) :
    ∃ w, v.nextAt i = .ok w ∧ w.IsFinal ∧ w.epoch = v.epoch ∧ (¬ v.IsDevOfPost → v <ₚ w) ∧ (v.IsDevOfPost → w <ₚ v) := by
  obtain ⟨w, h1, h2, h3, h4, h5, h6⟩ := nextAt_spec v hv i
  refine ⟨w, h1, h2, h3, ?_⟩
  rw [vlt_iff, vlt_iff]
  cases hs : v.isStable with
  | true =>
    have hst := (stable_iff v).1 hs
    have hlt : v.key < w.key := by
      rw [key_lt_iff]
      refine Or.inr ⟨by rw [h3], Or.inl ?_⟩
      exact compareParts_lt_of_below _ _ hv.release h4.release hn (below_nextAt (h5 hs).2)
    exact ⟨fun _ => hlt, fun h => absurd hst.2 h.2.2⟩
  | false =>
    have hu : v.pre ≠ none ∨ v.dev ≠ none := by
      by_contra hc
      rw [(stable_iff v).2 (by simpa using hc)] at hs
      simp at hs
    exact final_below (by rw [h6 hs]) h3 h2 hu

example : ∃ w, (exVersion [1, 2] (some rcTag)).nextAt 0 = .ok w ∧ exVersion [1, 2] (some rcTag) <ₚ w ∧ w = exVersion [1, 2] :=
  ⟨_, by decide +kernel, by decide +kernel, rfl⟩

/-- C10. The named bumps are bumps at indices 0, 1, 2 and 2. -/
theorem C10_named (v : Version) : v.nextMajor = v.nextAt 0 ∧ v.nextMinor = v.nextAt 1 ∧ v.nextMicro = v.nextAt 2 ∧
    v.nextPatch = v.nextAt 2 := ⟨rfl, rfl, rfl, rfl⟩

example : (exVersion [1, 2, 3, 4]).nextPatch = .ok (exVersion [1, 2, 4, 0]) ∧ (exVersion [1]).nextMinor = .ok (exVersion [1, 1]) := by decide +kernel

/-- C10. Bumping an unstable version only drops its tags and local segment; bumping a stable one at `i` increments part
`i` and clears the later parts. -/
theorem C10_parts (v : Version) (hv : v.Valid) (i : Nat) (w : Version) (h : v.nextAt i = .ok w) :
    (v.isStable = false → w.release = v.release) ∧
    (v.isStable = true → ∀ j, w.release.part j = if j < i then v.release.part j else if j = i then v.release.part i + 1 else 0) := by
  obtain ⟨w', h1, -, -, -, h5, h6⟩ := nextAt_spec v hv i
  rw [h1] at h; injection h with h; subst h
  exact ⟨h6, fun hs => (h5 hs).2⟩

example : (exVersion [1, 2] none (some postTag) (some devTag)).nextMajor = .ok (exVersion [1, 2]) := by decide +kernel
example : exVersion [1, 2] <ₚ exVersion [1, 2] none (some postTag) (some devTag) := by decide +kernel
example : (exVersion [1, 2, 3] none (some postTag) none).nextMinor = .ok (exVersion [1, 3, 0]) := by decide +kernel

/-! ## C11: bumping tags -/

/-- Constructing default tags gives alpha.0, post.0, dev.0. -/
theorem C11_default_tags : Tag.default .pre = .ok ⟨"alpha".toList, 0⟩ ∧ Tag.default .post = .ok ⟨"post".toList, 0⟩ ∧
    Tag.default .dev = .ok ⟨"dev".toList, 0⟩ := by decide +kernel

theorem tag_next {cls : TagClass} {t : Tag} (h : t.Valid cls) : t.next cls = .ok ⟨t.phase, t.value + 1⟩ :=
  tag_create_valid h _

theorem tag_next_key (t : Tag) : t.key < (⟨t.phase, t.value + 1⟩ : Tag).key := by
  rw [tagKey_lt]; exact Or.inr ⟨rfl, by simp; omega⟩

/-- C11. `next_post` is always greater; it keeps the pre tag, drops dev and local. -/
theorem C11_next_post (v : Version) (hv : v.Valid) :
    ∃ w q, v.nextPost = .ok w ∧ v <ₚ w ∧ w = ⟨v.epoch, v.release, v.pre, some q, none, none⟩ ∧
      (v.post = none → q = ⟨"post".toList, 0⟩) ∧ (∀ p, v.post = some p → q = ⟨p.phase, p.value + 1⟩) := by
  cases hp : v.post with
  | none =>
    refine ⟨_, ⟨"post".toList, 0⟩, by simp [Version.nextPost, hp, C11_default_tags.2.1, bind, Except.bind]; rfl, ?_, rfl,
      fun _ => rfl, fun p h => by simp at h⟩
    rw [vlt_iff, key_lt_same _ _ (by rfl) (by rfl), hp]
    have hpost : extKey Tag.key (Version.comparePost none) < extKey Tag.key (Version.comparePost (some ⟨"post".toList, 0⟩)) :=
      extKey_negInf_lt_fin _ _
    cases hpre : v.pre with
    | some p => right; exact ⟨rfl, Or.inl hpost⟩
    | none => cases hd : v.dev with
      | none => right; exact ⟨rfl, Or.inl hpost⟩
      | some d => left; exact extKey_negInf_lt_posInf _
  | some p =>
    refine ⟨_, ⟨p.phase, p.value + 1⟩, by simp [Version.nextPost, hp, tag_next (hv.post p hp), bind, Except.bind]; rfl, ?_,
      rfl, fun h => by simp at h, fun p' h => by simp at h; rw [h]⟩
    rw [vlt_iff, key_lt_same _ _ (by rfl) (by rfl), hp]
    right
    refine ⟨?_, Or.inl ?_⟩
    · cases hpre : v.pre <;> rfl
    · simp only [Version.comparePost, Version.setPost, Version.withoutDevAndLocal, Version.setDevAndLocal,
        extKey_fin_lt_fin]
      exact tag_next_key p

example : (exVersion [1] (some rcTag) none (some devTag)).nextPost = .ok (exVersion [1] (some rcTag) (some ⟨"post".toList, 0⟩)) ∧
    exVersion [1] (some rcTag) none (some devTag) <ₚ exVersion [1] (some rcTag) (some ⟨"post".toList, 0⟩) := by decide +kernel

/-- C11. `next_pre` on a version with a pre tag: greater, pre number incremented, everything after it dropped. -/
theorem C11_next_pre (v : Version) (hv : v.Valid) (p : Tag) (hp : v.pre = some p) :
    ∃ w, v.nextPre = .ok w ∧ v <ₚ w ∧ w = ⟨v.epoch, v.release, some ⟨p.phase, p.value + 1⟩, none, none, none⟩ := by
  refine ⟨_, by simp [Version.nextPre, hp, tag_next (hv.pre p hp), bind, Except.bind]; rfl, ?_, rfl⟩
  rw [vlt_iff, key_lt_same _ _ (by rfl) (by rfl), hp]
  left
  exact (extKey_fin_lt_fin _ _ _).2 (tag_next_key p)

example : (exVersion [1] (some rcTag) none (some devTag)).nextPre = .ok (exVersion [1] (some ⟨"rc".toList, 2⟩)) := by decide +kernel

/-- C11. Without a pre tag, `next_pre` and `next_pre_phase` make alpha.0, which is below every version of that release
that is not a bare dev release. -/
theorem C11_next_pre_absent (v : Version) (hp : v.pre = none) :
    ∃ w, v.nextPre = .ok w ∧ v.nextPrePhase = .ok (some w) ∧
      w = ⟨v.epoch, v.release, some ⟨"alpha".toList, 0⟩, none, none, none⟩ ∧
      ((v.post = none ∧ v.dev ≠ none → v <ₚ w) ∧ (¬ (v.post = none ∧ v.dev ≠ none) → w <ₚ v)) := by
  refine ⟨_, by simp [Version.nextPre, hp, C11_default_tags.1, bind, Except.bind]; rfl,
    by simp [Version.nextPrePhase, hp, C11_default_tags.1, bind, Except.bind]; rfl, rfl, ?_⟩
  rw [vlt_iff, vlt_iff, key_lt_same _ _ (by rfl) (by rfl), key_lt_same _ _ (by rfl) (by rfl), hp]
  constructor
  · rintro ⟨h1, h2⟩
    left
    cases hd : v.dev with
    | none => exact absurd hd h2
    | some d => rw [h1]; exact extKey_negInf_lt_fin _ _
  · intro h
    left
    cases hq : v.post with
    | some q => exact extKey_fin_lt_posInf _ _
    | none => cases hd : v.dev with
      | none => exact extKey_fin_lt_posInf _ _
      | some d => simp [hq, hd] at h

example : (exVersion [1]).nextPre = .ok (exVersion [1] (some ⟨"alpha".toList, 0⟩)) ∧ exVersion [1] (some ⟨"alpha".toList, 0⟩) <ₚ exVersion [1] ∧
    exVersion [1] none none (some devTag) <ₚ exVersion [1] (some ⟨"alpha".toList, 0⟩) := by decide +kernel

/-- C11. `next_pre_phase`: alpha -> beta -> rc, the other phases have no next one. -/
theorem C11_next_pre_phase (v : Version) (p : Tag) (hp : v.pre = some p) (hv : p.Valid .pre) :
    (p.phase = "alpha".toList → v.nextPrePhase = .ok (some ⟨v.epoch, v.release, some ⟨"beta".toList, 0⟩, none, none, none⟩)) ∧
    (p.phase = "beta".toList → v.nextPrePhase = .ok (some ⟨v.epoch, v.release, some ⟨"rc".toList, 0⟩, none, none, none⟩)) ∧
    (p.phase ≠ "alpha".toList → p.phase ≠ "beta".toList → v.nextPrePhase = .ok none) ∧
    (∀ w, v.nextPrePhase = .ok (some w) → v <ₚ w) := by
  obtain ⟨ph, n⟩ := p
  have h1 : ph = "alpha".toList → v.nextPrePhase = .ok (some ⟨v.epoch, v.release, some ⟨"beta".toList, 0⟩, none, none, none⟩) := by
    rintro rfl
    have : Tag.nextPhase .pre ⟨"alpha".toList, n⟩ = .ok (some ⟨"beta".toList, 0⟩) := rfl
    simp [Version.nextPrePhase, hp, this, bind, Except.bind]; rfl
  have h2 : ph = "beta".toList → v.nextPrePhase = .ok (some ⟨v.epoch, v.release, some ⟨"rc".toList, 0⟩, none, none, none⟩) := by
    rintro rfl
    have : Tag.nextPhase .pre ⟨"beta".toList, n⟩ = .ok (some ⟨"rc".toList, 0⟩) := rfl
    simp [Version.nextPrePhase, hp, this, bind, Except.bind]; rfl
  have h3 : ph ≠ "alpha".toList → ph ≠ "beta".toList → v.nextPrePhase = .ok none := by
    intro ha hb
    have aux : ∀ q ∈ TagClass.pre.phases.map String.toList, q ≠ "alpha".toList → q ≠ "beta".toList →
        dictGet Phases.toNext q = none := by decide +kernel
    have := aux _ (valid_mem hv) ha hb
    simp only at this
    have : Tag.nextPhase .pre ⟨ph, n⟩ = .ok none := by simp [Tag.nextPhase, this]
    simp [Version.nextPrePhase, hp, this, bind, Except.bind]
  refine ⟨h1, h2, h3, ?_⟩
  intro w hw
  by_cases ha : ph = "alpha".toList
  · rw [h1 ha] at hw
    injection hw with hw; injection hw with hw
    subst hw
    rw [vlt_iff, key_lt_same _ _ (by rfl) (by rfl), hp, ha]
    left
    refine (extKey_fin_lt_fin _ _ _).2 ((tagKey_lt _ _).2 (Or.inl ?_))
    exact phase_order.1
  · by_cases hb : ph = "beta".toList
    · rw [h2 hb] at hw
      injection hw with hw; injection hw with hw
      subst hw
      rw [vlt_iff, key_lt_same _ _ (by rfl) (by rfl), hp, hb]
      left
      refine (extKey_fin_lt_fin _ _ _).2 ((tagKey_lt _ _).2 (Or.inl ?_))
      exact phase_order.2.1.trans (phase_order.2.2.1.trans phase_order.2.2.2.1)
    · rw [h3 ha hb] at hw; simp at hw

example : (exVersion [1] (some ⟨"alpha".toList, 4⟩)).nextPrePhase = .ok (some (exVersion [1] (some ⟨"beta".toList, 0⟩))) ∧
    (exVersion [1] (some rcTag)).nextPrePhase = .ok none := by decide +kernel

/-- C11. `next_dev`: with a dev tag, greater; without, dev.0 is added. Pre and post are kept, local is dropped. -/
theorem C11_next_dev (v : Version) (hv : v.Valid) :
    ∃ w, v.nextDev = .ok w ∧ w.epoch = v.epoch ∧ w.release = v.release ∧ w.pre = v.pre ∧ w.post = v.post ∧ w.local_ = none ∧
      (v.dev = none → w.dev = some ⟨"dev".toList, 0⟩ ∧ w <ₚ v) ∧
      (∀ d, v.dev = some d → w.dev = some ⟨d.phase, d.value + 1⟩ ∧ v <ₚ w) := by
  cases hd : v.dev with
  | none =>
    refine ⟨(v.setDev (some ⟨"dev".toList, 0⟩)).withoutLocal, by simp [Version.nextDev, hd, C11_default_tags.2.2, bind, Except.bind], rfl, rfl, rfl, rfl, rfl, ?_,
      fun d h => by simp at h⟩
    refine fun _ => ⟨rfl, ?_⟩
    rw [vlt_iff, key_lt_same _ _ (by rfl) (by rfl), hd]
    show extKey Tag.key (Version.comparePre v.pre v.post (some ⟨"dev".toList, 0⟩)) < _ ∨
      extKey Tag.key (Version.comparePre v.pre v.post (some ⟨"dev".toList, 0⟩)) = _ ∧ (_ ∨ _ = _ ∧ (_ ∨ _))
    cases hpre : v.pre with
    | some p => right; exact ⟨rfl, Or.inr ⟨rfl, Or.inl (extKey_fin_lt_posInf _ _)⟩⟩
    | none => cases hq : v.post with
      | some q =>
        right
        refine ⟨rfl, Or.inr ⟨?_, Or.inl (extKey_fin_lt_posInf _ _)⟩⟩
        show extKey Tag.key (Version.comparePost v.post) = _
        rw [hq]
      | none => left; exact extKey_negInf_lt_posInf _
  | some d =>
    refine ⟨(v.setDev (some ⟨d.phase, d.value + 1⟩)).withoutLocal, by simp [Version.nextDev, hd, tag_next (hv.dev d hd), bind, Except.bind], rfl, rfl, rfl, rfl, rfl,
      fun h => by simp at h, ?_⟩
    intro d' h
    simp at h; subst h
    refine ⟨rfl, ?_⟩
    rw [vlt_iff, key_lt_same _ _ (by rfl) (by rfl), hd]
    right
    refine ⟨?_, Or.inr ⟨rfl, Or.inl ((extKey_fin_lt_fin _ _ _).2 (tag_next_key d))⟩⟩
    show _ = extKey Tag.key (Version.comparePre v.pre v.post (some _))
    cases hpre : v.pre <;> rfl

example : (exVersion [1] (some rcTag)).nextDev = .ok (exVersion [1] (some rcTag) none (some ⟨"dev".toList, 0⟩)) ∧
    exVersion [1] (some rcTag) none (some ⟨"dev".toList, 0⟩) <ₚ exVersion [1] (some rcTag) ∧
    (exVersion [1] none none (some devTag)).nextDev = .ok (exVersion [1] none none (some ⟨"dev".toList, 8⟩)) := by decide +kernel

example : (exVersion [1] (some rcTag) (some postTag) (some devTag)).nextPre = .ok (exVersion [1] (some ⟨"rc".toList, 2⟩)) := by
  decide +kernel
example : (exVersion [1] (some ⟨"beta".toList, 4⟩)).nextPrePhase = .ok (some (exVersion [1] (some ⟨"rc".toList, 0⟩))) := by
  decide +kernel
example : (exVersion [1] none (some postTag) (some devTag)).nextPost = .ok (exVersion [1] none (some ⟨"post".toList, 2⟩)) := by
  decide +kernel

/-! ## C12: to_stable -/

/-- C12. -/
theorem C12_to_stable (v : Version) :
    v.toStable.pre = none ∧ v.toStable.dev = none ∧ v.toStable.isStable = true ∧ v.toStable.toStable = v.toStable ∧
    (v.pre = none ∧ v.dev = none → v.toStable = v) ∧
    (v.pre ≠ none ∨ v.dev ≠ none → v.toStable = ⟨v.epoch, v.release, none, none, none, none⟩) ∧
    (¬ v.IsDevOfPost → v ≤ₚ v.toStable) ∧ (v.IsDevOfPost → v.toStable <ₚ v) := by
  cases hs : v.isStable with
  | true =>
    have h1 := (stable_iff v).1 hs
    have e : v.toStable = v := by simp [Version.toStable, hs]
    rw [e]
    refine ⟨h1.1, h1.2, hs, e, fun _ => rfl, ?_, fun _ => (vle_iff _ _).2 (le_refl _), ?_⟩
    · rintro (h | h)
      · exact absurd h1.1 h
      · exact absurd h1.2 h
    · rintro ⟨-, -, h⟩; exact absurd h1.2 h
  | false =>
    have hu : v.pre ≠ none ∨ v.dev ≠ none := by
      by_contra hc
      rw [(stable_iff v).2 (by simpa using hc)] at hs
      simp at hs
    have e : v.toStable = ⟨v.epoch, v.release, none, none, none, none⟩ := by
      simp [Version.toStable, hs]; rfl
    rw [e]
    refine ⟨rfl, rfl, rfl, rfl, ?_, fun _ => rfl, ?_⟩
    · rintro ⟨h1, h2⟩; simp [h1, h2] at hu
    · have := final_below (v := v) (w := ⟨v.epoch, v.release, none, none, none, none⟩) rfl rfl ⟨rfl, rfl, rfl, rfl⟩ hu
      rw [vle_iff, vlt_iff]
      exact ⟨fun h => (this.1 h).le, this.2⟩

example : (exVersion [1] (some rcTag) (some postTag)).toStable = exVersion [1] := by decide +kernel
example : (exVersion [1] none (some postTag) (some devTag)).IsDevOfPost := by simp [Version.IsDevOfPost, exVersion]

/-! ## C14: normalize -/

/-- The normal form of a phase. -/
def normalPhase (p : PyStr) : PyStr :=
  if p = "candidate".toList ∨ p = "preview".toList then "rc".toList else if p = "rev".toList then "post".toList else p

theorem tag_normalize {cls : TagClass} {t : Tag} (h : t.Valid cls) :
    t.normalize cls = .ok ⟨normalPhase t.phase, t.value⟩ := by
  have aux1 : ∀ cls : TagClass, ∀ p ∈ cls.phases.map String.toList,
      Tag.convertPhase ((dictGet Phases.toNormal p).getD p) = normalPhase p ∧ normalPhase p ∈ cls.phaseSet := by
    intro cls; cases cls <;> decide +kernel
  obtain ⟨h1, h2⟩ := aux1 cls _ (valid_mem h)
  simp [Tag.normalize, Tag.setPhase, Tag.normal, Tag.create, h1, h2]

/-- The tag with its phase normalized. -/
def Tag.normalized (t : Tag) : Tag := ⟨normalPhase t.phase, t.value⟩

theorem normalizeTag_ok (cls : TagClass) (o : Option Tag) (h : ∀ t, o = some t → t.Valid cls) :
    Version.normalizeTag cls o = .ok (o.map Tag.normalized) := by
  cases o with
  | none => rfl
  | some t => simp [Version.normalizeTag, tag_normalize (h t rfl), bind, Except.bind, Tag.normalized]

/-- C14. `normalize` never fails and changes only phases: candidate and preview become rc, rev becomes post. -/
theorem C14_normalize (v : Version) (hv : v.Valid) :
    v.normalize = .ok ⟨v.epoch, v.release, v.pre.map Tag.normalized, v.post.map Tag.normalized, v.dev.map Tag.normalized,
      v.local_⟩ := by
  simp [Version.normalize, normalizeTag_ok _ _ hv.pre, normalizeTag_ok _ _ hv.post, normalizeTag_ok _ _ hv.dev, bind,
    Except.bind, Version.setTags]

example : (exVersion [1] (some ⟨"candidate".toList, 3⟩) none (some devTag)).Valid ∧
    (exVersion [1] (some ⟨"candidate".toList, 3⟩) none (some devTag)).normalize = .ok (exVersion [1] (some ⟨"rc".toList, 3⟩) none (some devTag)) := by
  decide +kernel

/-- C14. The result uses only alpha, beta, rc, post and dev, and normalizing it again changes nothing. -/
theorem C14_normal_form (v w : Version) (hv : v.Valid) (h : v.normalize = .ok w) :
    w.Valid ∧ w.normalize = .ok w ∧
    (∀ t, w.pre = some t → t.phase ∈ ["alpha".toList, "beta".toList, "rc".toList]) ∧
    (∀ t, w.post = some t → t.phase = "post".toList) ∧ (∀ t, w.dev = some t → t.phase = "dev".toList) := by
  rw [C14_normalize v hv] at h
  injection h with h
  have aux : ∀ cls : TagClass, ∀ p ∈ cls.phases.map String.toList, normalPhase p ∈ cls.phases.map String.toList ∧
      normalPhase (normalPhase p) = normalPhase p ∧
      (cls = .pre → normalPhase p ∈ ["alpha".toList, "beta".toList, "rc".toList]) ∧
      (cls = .post → normalPhase p = "post".toList) ∧ (cls = .dev → normalPhase p = "dev".toList) := by
    intro cls; cases cls <;> decide +kernel
  have hmap : ∀ cls (o : Option Tag), (∀ t, o = some t → t.Valid cls) → ∀ t, o.map Tag.normalized = some t →
      ∃ s : Tag, s.Valid cls ∧ t = s.normalized := by
    intro cls o ho t ht
    cases o with
    | none => simp at ht
    | some s => simp at ht; exact ⟨s, ho s rfl, ht.symm⟩
  have hwv : w.Valid := by
    subst h
    refine ⟨hv.release, ?_, ?_, ?_, hv.local_⟩
    · intro t ht
      obtain ⟨s, hs, rfl⟩ := hmap .pre _ hv.pre t ht
      exact valid_of_mem (aux _ _ (valid_mem hs)).1
    · intro t ht
      obtain ⟨s, hs, rfl⟩ := hmap .post _ hv.post t ht
      exact valid_of_mem (aux _ _ (valid_mem hs)).1
    · intro t ht
      obtain ⟨s, hs, rfl⟩ := hmap .dev _ hv.dev t ht
      exact valid_of_mem (aux _ _ (valid_mem hs)).1
  have hidem : ∀ cls (o : Option Tag), (∀ t, o = some t → t.Valid cls) →
      (o.map Tag.normalized).map Tag.normalized = o.map Tag.normalized := by
    intro cls o ho
    cases o with
    | none => rfl
    | some s =>
      simp only [Option.map_some, Option.some.injEq, Tag.normalized]
      rw [(aux _ _ (valid_mem (ho s rfl))).2.1]
  refine ⟨hwv, ?_, ?_, ?_, ?_⟩
  · rw [C14_normalize w hwv]
    subst h
    simp only [hidem _ _ hv.pre, hidem _ _ hv.post, hidem _ _ hv.dev]
  · intro t ht; subst h
    obtain ⟨s, hs, rfl⟩ := hmap .pre _ hv.pre t ht
    exact (aux _ _ (valid_mem hs)).2.2.1 rfl
  · intro t ht; subst h
    obtain ⟨s, hs, rfl⟩ := hmap .post _ hv.post t ht
    exact (aux _ _ (valid_mem hs)).2.2.2.1 rfl
  · intro t ht; subst h
    obtain ⟨s, hs, rfl⟩ := hmap .dev _ hv.dev t ht
    exact (aux _ _ (valid_mem hs)).2.2.2.2 rfl

example : (exVersion [1] (some ⟨"rc".toList, 3⟩)).normalize = .ok (exVersion [1] (some ⟨"rc".toList, 3⟩)) :=
  (C14_normal_form (exVersion [1] (some ⟨"preview".toList, 3⟩)) _ (by decide +kernel) (by decide +kernel)).2.1

/-- C14. Versions already using the normal phases are unchanged. -/
theorem C14_unchanged (v : Version) (hv : v.Valid)
    (hpre : ∀ t, v.pre = some t → t.phase ∈ ["alpha".toList, "beta".toList, "rc".toList])
    (hpost : ∀ t, v.post = some t → t.phase = "post".toList) : v.normalize = .ok v := by
  rw [C14_normalize v hv]
  have h1 : v.pre.map Tag.normalized = v.pre := by
    cases hp : v.pre with
    | none => rfl
    | some t =>
      have aux : ∀ p ∈ ["alpha".toList, "beta".toList, "rc".toList], normalPhase p = p := by decide +kernel
      simp only [Option.map_some, Tag.normalized, aux _ (hpre t hp)]
  have h2 : v.post.map Tag.normalized = v.post := by
    cases hp : v.post with
    | none => rfl
    | some t =>
      have aux : normalPhase "post".toList = "post".toList := by decide +kernel
      have e := hpost t hp
      obtain ⟨ph, n⟩ := t
      simp only at e
      simp only [Option.map_some, Tag.normalized, e, aux]
  have h3 : v.dev.map Tag.normalized = v.dev := by
    cases hp : v.dev with
    | none => rfl
    | some t =>
      have aux : ∀ p ∈ TagClass.dev.phases.map String.toList, normalPhase p = p := by decide +kernel
      simp only [Option.map_some, Tag.normalized, aux _ (valid_mem (hv.dev t hp))]
  rw [h1, h2, h3]

example : (exVersion [1] (some rcTag) (some postTag) (some devTag)).normalize = .ok (exVersion [1] (some rcTag) (some postTag) (some devTag)) :=
  C14_unchanged _ (by decide +kernel) (by decide +kernel) (by decide +kernel)

/-- C14. Normalization can reverse the order: `1candidate2 < 1rc1`, but `1rc2 > 1rc1`. -/
theorem C14_order_not_preserved : ∃ a b a' b' : Version, a.Valid ∧ b.Valid ∧ a.normalize = .ok a' ∧ b.normalize = .ok b' ∧
    a <ₚ b ∧ b' <ₚ a' := by
  refine ⟨exVersion [1] (some ⟨"candidate".toList, 2⟩), exVersion [1] (some rcTag), exVersion [1] (some ⟨"rc".toList, 2⟩),
    exVersion [1] (some rcTag), ?_, exValid _ (by simp) _ _ _ (by simp) (by simp) (by simp), by decide +kernel,
    by decide +kernel, by decide +kernel, by decide +kernel⟩
  refine ⟨by simp [exVersion], ?_, by simp [exVersion], by simp [exVersion], by simp [exVersion]⟩
  intro t ht
  simp only [exVersion, Option.some.injEq] at ht
  subst ht; decide +kernel

example : (exVersion [1] (some ⟨"preview".toList, 3⟩) (some ⟨"rev".toList, 1⟩)).normalize =
    .ok (exVersion [1] (some ⟨"rc".toList, 3⟩) (some ⟨"post".toList, 1⟩)) := by decide +kernel

end Verif
