import Verif.Props.FromText
/-!
# C123: from text to answer, for requirements on public versions of PEP 440

Like C122, but the versions and the operands have epochs and pre-, post- and development tags in the spelling that PEP 440
prescribes. Again nothing of the model occurs in what the strings mean.
-/

namespace Verif
open scoped Verif

/-! ## The strings -/

inductive PrePhase
  | a | b | rc
  deriving DecidableEq, Repr

/-- A public version of PEP 440. -/
structure Pub where
  epoch : Nat := 0
  numbers : List Nat
  pre : Option (PrePhase × Nat) := none
  post : Option Nat := none
  dev : Option Nat := none
  deriving DecidableEq, Repr

def numText (n : Nat) : PyStr := (toString n).toList

/-- `N!N.N.N{a|b|rc}N.postN.devN`, with a zero epoch left out. -/
def Pub.text (p : Pub) : PyStr :=
  (if p.epoch = 0 then [] else numText p.epoch ++ "!".toList) ++ relText p.numbers ++
  (match p.pre with
    | none => []
    | some (.a, n) => "a".toList ++ numText n
    | some (.b, n) => "b".toList ++ numText n
    | some (.rc, n) => "rc".toList ++ numText n) ++
  (match p.post with
    | none => []
    | some n => ".post".toList ++ numText n) ++
  (match p.dev with
    | none => []
    | some n => ".dev".toList ++ numText n)

/-- A requirement on public versions. -/
structure Ask where
  sign : Sign
  version : Pub

def Ask.text (q : Ask) : PyStr := q.sign.text.toList ++ q.version.text ++ q.sign.ending.toList

/-- At least one number, two for `~=`; before `.*` only an epoch and numbers. -/
def Ask.WellFormed (q : Ask) : Prop :=
  q.version.numbers ≠ [] ∧ (q.sign = .tildeEqual → 2 ≤ q.version.numbers.length) ∧
  (q.sign.ending = ".*" → q.version.pre = none ∧ q.version.post = none ∧ q.version.dev = none)

/-! ## What they mean -/

namespace Pub

/-- Within the same numbers: development releases of the final release first, then pre-releases by phase and number, then the
final release and its post-releases. -/
def preKey (p : Pub) : Nat × Nat :=
  match p.pre, p.post, p.dev with
  | some (.a, n), _, _ => (1, n)
  | some (.b, n), _, _ => (2, n)
  | some (.rc, n), _, _ => (3, n)
  | none, none, some _ => (0, 0)
  | none, _, _ => (4, 0)

/-- Without post tag first, then by number. -/
def postKey (p : Pub) : Nat :=
  match p.post with
  | none => 0
  | some n => n + 1

/-- Development releases first, by number. -/
def devKey (p : Pub) : Nat × Nat :=
  match p.dev with
  | some n => (0, n)
  | none => (1, 0)

def pairBelow (x y : Nat × Nat) : Prop := x.1 < y.1 ∨ x.1 = y.1 ∧ x.2 < y.2

/-- The order of PEP 440. -/
def Below (x y : Pub) : Prop :=
  x.epoch < y.epoch ∨ x.epoch = y.epoch ∧
  (Smaller x.numbers y.numbers ∨ (∀ i, numAt x.numbers i = numAt y.numbers i) ∧
  (pairBelow x.preKey y.preKey ∨ x.preKey = y.preKey ∧
  (x.postKey < y.postKey ∨ x.postKey = y.postKey ∧ pairBelow x.devKey y.devKey)))

/-- The same version, up to zeros at the end of the numbers. -/
def Same (x y : Pub) : Prop :=
  x.epoch = y.epoch ∧ (∀ i, numAt x.numbers i = numAt y.numbers i) ∧ x.pre = y.pre ∧ x.post = y.post ∧ x.dev = y.dev

/-- A pre-release, or a development release of a final release: it comes before the final release with its numbers. -/
def Leads (x : Pub) : Prop := x.pre ≠ none ∨ x.post = none ∧ x.dev ≠ none

/-- `x` has the numbers of `a` up to place `i`, or leads to the final release that has the number at place `i` increased by one and
zeros behind. -/
def Within (i : Nat) (x a : Pub) : Prop :=
  x.epoch = a.epoch ∧ (AgreeTo (i + 1) x.numbers a.numbers ∨
    x.Leads ∧ AgreeTo i x.numbers a.numbers ∧ numAt x.numbers i = numAt a.numbers i + 1 ∧ ∀ j > i, numAt x.numbers j = 0)

/-- `x` has the same numbers as `a`, and leads to the final release with these. -/
def Leading (x a : Pub) : Prop := x.epoch = a.epoch ∧ x.Leads ∧ ∀ i, numAt x.numbers i = numAt a.numbers i

/-- Neither a pre-release nor a development release. -/
def Stable (a : Pub) : Prop := a.pre = none ∧ a.dev = none

/-- The place of the first non-zero number among the first three, of the last of these if there is none. -/
def FirstNonZero (a : Pub) (i : Nat) : Prop :=
  i < 3 ∧ (∀ j < i, numAt a.numbers j = 0) ∧ (numAt a.numbers i ≠ 0 ∨ i + 1 = min 3 a.numbers.length)

end Pub

/-- `x` satisfies the requirement. -/
def Ask.Holds (q : Ask) (x : Pub) : Prop :=
  let a := q.version
  match q.sign with
  | .caret => ¬ x.Below a ∧ (a.Stable ∧ (∃ i, a.FirstNonZero i ∧ x.Within i a) ∨
      ¬ a.Stable ∧ numAt a.numbers 0 ≠ 0 ∧ x.Within 0 a ∨ ¬ a.Stable ∧ numAt a.numbers 0 = 0 ∧ x.Leading a)
  | .tilde => ¬ x.Below a ∧ (a.Stable ∧ x.Within (min 2 a.numbers.length - 1) a ∨ ¬ a.Stable ∧ x.Leading a)
  | .tildeEqual => ¬ x.Below a ∧ x.Within (a.numbers.length - 2) a
  | .doubleEqual | .equal => x.Same a
  | .notEqual => ¬ x.Same a
  | .less => x.Below a
  | .lessOrEqual => ¬ a.Below x
  | .greater => a.Below x
  | .greaterOrEqual => ¬ x.Below a
  | .under | .underSingle => ¬ x.Below a ∧ x.Within (a.numbers.length - 1) a
  | .notUnder => ¬ (¬ x.Below a ∧ x.Within (a.numbers.length - 1) a)

/-! ## Versions of the model -/

namespace FromPublic
open FromText

def phase : PrePhase → PyStr
  | .a => "alpha".toList
  | .b => "beta".toList
  | .rc => "rc".toList

def ver (p : Pub) : Version where
  epoch := ⟨p.epoch⟩
  release := ⟨p.numbers.map Int.ofNat⟩
  pre := p.pre.map fun t : PrePhase × Nat => ⟨phase t.1, t.2⟩
  post := p.post.map fun n : Nat => ⟨"post".toList, n⟩
  dev := p.dev.map fun n : Nat => ⟨"dev".toList, n⟩
  local_ := none

theorem ver_valid {p : Pub} (h : p.numbers ≠ []) : (ver p).Valid := by
  refine ⟨by simpa [ver] using h, ?_, ?_, ?_, by simp [ver]⟩
  · intro t ht
    obtain ⟨⟨f, n⟩, -, rfl⟩ := Option.map_eq_some_iff.1 ht
    cases f <;> exact ⟨_, by decide, rfl⟩
  · intro t ht
    obtain ⟨n, -, rfl⟩ := Option.map_eq_some_iff.1 ht
    exact ⟨"post", by decide, rfl⟩
  · intro t ht
    obtain ⟨n, -, rfl⟩ := Option.map_eq_some_iff.1 ht
    exact ⟨"dev", by decide, rfl⟩

theorem ver_nonNeg (p : Pub) : (ver p).release.NonNeg := FromText.ver_nonNeg p.numbers

theorem ver_canonical {p : Pub} (h : p.numbers ≠ []) : (ver p).Canonical := by
  refine ⟨ver_valid h, Int.natCast_nonneg _, ver_nonNeg p, ?_, ?_, ?_, by simp [ver]⟩ <;> intro t ht <;>
    obtain ⟨n, -, rfl⟩ := Option.map_eq_some_iff.1 ht <;> simp

theorem ver_part (p : Pub) (i : Nat) : (ver p).release.part i = (numAt p.numbers i : Int) := FromText.ver_part p.numbers i

theorem ver_precision (p : Pub) : (ver p).release.precision = p.numbers.length := FromText.ver_precision p.numbers

theorem tag_short (f g : PyStr) (n : Nat) (h : (dictGet Phases.toShort f).getD f = g) : (⟨f, n⟩ : Tag).toShortStr = g ++ numText n := by
  unfold Tag.toShortStr numText Tag.short
  rw [numeral_eq, h]
  simp [join, List.intercalate]
  rfl

theorem join_flatten (l : List PyStr) : join [] l = l.flatten := by
  induction l with
  | nil => rfl
  | cons s l ih =>
    cases l with
    | nil => simp [join, List.intercalate]
    | cons t l => simp only [join, List.intercalate_cons_cons] at ih ⊢; simp [ih]

theorem ver_short (p : Pub) : (ver p).toShortStr = p.text := by
  have hr : (⟨p.numbers.map Int.ofNat⟩ : Release).toStr = relText p.numbers := ver_text p.numbers
  have he : (Version.epochPart ⟨p.epoch⟩).flatten = if p.epoch = 0 then [] else numText p.epoch ++ "!".toList := by
    by_cases h : p.epoch = 0
    · rw [if_pos h, h]; rfl
    · rw [if_neg h]
      unfold Version.epochPart
      rw [if_pos (by simp [Epoch.truthy, h])]
      unfold Epoch.toStr numText
      rw [numeral_eq]
      simp
      rfl
  unfold Version.toShortStr
  rw [join_flatten]
  simp only [List.flatten_append, ver, hr, he]
  unfold Pub.text
  simp only [Version.part, List.flatten_nil, List.append_nil, List.flatten_cons]
  congr 1
  · congr 1
    · congr 1
      rcases p.pre with _ | ⟨f, n⟩
      · rfl
      · cases f
        · simp only [Option.map_some, phase, tag_short "alpha".toList "a".toList n (by decide +kernel)]; simp
        · simp only [Option.map_some, phase, tag_short "beta".toList "b".toList n (by decide +kernel)]; simp
        · simp only [Option.map_some, phase, tag_short "rc".toList "rc".toList n (by decide +kernel)]; simp
    · rcases p.post with _ | n
      · rfl
      · simp only [Option.map_some, tag_short "post".toList "post".toList n (by decide +kernel)]; simp
  · rcases p.dev with _ | n
    · rfl
    · simp only [Option.map_some, tag_short "dev".toList "dev".toList n (by decide +kernel)]; simp

/-! ### The order -/

/-- The places of the phases of PEP 440 among those of the library. -/
def placeOf : Nat → Nat
  | 0 => 0 | 1 => 1 | 2 => 2 | 3 => 5 | _ => 6

theorem preKey_le (p : Pub) : p.preKey.1 ≤ 4 := by
  unfold Pub.preKey; split <;> simp

theorem pre_rank (p : Pub) : (ver p).preRank = (placeOf p.preKey.1, (p.preKey.2 : Int)) := by
  obtain ⟨e, l, pre, post, dev⟩ := p
  have h1 : place ["alpha", "beta", "candidate", "preview", "rc"] "alpha".toList = 0 := by decide +kernel
  have h2 : place ["alpha", "beta", "candidate", "preview", "rc"] "beta".toList = 1 := by decide +kernel
  have h3 : place ["alpha", "beta", "candidate", "preview", "rc"] "rc".toList = 4 := by decide +kernel
  rcases pre with _ | ⟨f, n⟩
  · rcases post with _ | m <;> rcases dev with _ | k <;> rfl
  · cases f <;> simp only [Version.preRank, ver, Option.map_some, phase, Pub.preKey, h1, h2, h3, placeOf]

theorem post_rank (p : Pub) : p.post = none ∧ (ver p).postRank = (0, 0) ∧ p.postKey = 0 ∨
    ∃ n : Nat, p.post = some n ∧ (ver p).postRank = (1, (n : Int)) ∧ p.postKey = n + 1 := by
  obtain ⟨e, l, pre, post, dev⟩ := p
  have h1 : place ["post", "rev"] "post".toList = 0 := by decide +kernel
  rcases post with _ | n
  · exact .inl ⟨rfl, rfl, rfl⟩
  · refine .inr ⟨n, rfl, ?_, rfl⟩
    simp only [Version.postRank, ver, Option.map_some, h1]

theorem dev_rank (p : Pub) : (ver p).devRank = (p.devKey.1, (p.devKey.2 : Int)) := by
  obtain ⟨e, l, pre, post, dev⟩ := p
  rcases dev with _ | n <;> rfl

theorem placeOf_lt {a b : Nat} (ha : a ≤ 4) (hb : b ≤ 4) : (placeOf a < placeOf b ↔ a < b) ∧ (placeOf a = placeOf b ↔ a = b) := by
  have : ∀ a : Fin 5, ∀ b : Fin 5, (placeOf a < placeOf b ↔ a.val < b.val) ∧ (placeOf a = placeOf b ↔ a.val = b.val) := by decide
  exact this ⟨a, by omega⟩ ⟨b, by omega⟩

theorem ver_lt {x y : Pub} (hx : x.numbers ≠ []) (hy : y.numbers ≠ []) : ver x <ₚ ver y ↔ x.Below y := by
  rw [C60_order _ _ (ver_valid hx) (ver_valid hy) (ver_nonNeg x) (ver_nonNeg y)]
  have e1 : (ver x).release.Below (ver y).release ↔ Smaller x.numbers y.numbers := ver_below x.numbers y.numbers
  have e2 : (ver x).preRank.Below (ver y).preRank ↔ Pub.pairBelow x.preKey y.preKey := by
    obtain ⟨h1, h2⟩ := placeOf_lt (preKey_le x) (preKey_le y)
    simp only [pre_rank, Rank.Below, Pub.pairBelow, h1, h2, Int.ofNat_lt]
  have e3 : (ver x).preRank = (ver y).preRank ↔ x.preKey = y.preKey := by
    obtain ⟨h1, h2⟩ := placeOf_lt (preKey_le x) (preKey_le y)
    simp only [pre_rank, Prod.ext_iff, h2, Int.natCast_inj]
  have e4 : (ver x).postRank.Below (ver y).postRank ↔ x.postKey < y.postKey := by
    rcases post_rank x with ⟨-, h1, h2⟩ | ⟨m, -, h1, h2⟩ <;> rcases post_rank y with ⟨-, h3, h4⟩ | ⟨n, -, h3, h4⟩ <;>
      rw [h1, h2, h3, h4] <;> simp [Rank.Below]
  have e5 : (ver x).postRank = (ver y).postRank ↔ x.postKey = y.postKey := by
    rcases post_rank x with ⟨-, h1, h2⟩ | ⟨m, -, h1, h2⟩ <;> rcases post_rank y with ⟨-, h3, h4⟩ | ⟨n, -, h3, h4⟩ <;>
      rw [h1, h2, h3, h4] <;> simp [Int.natCast_inj]
  have e6 : (ver x).devRank.Below (ver y).devRank ↔ Pub.pairBelow x.devKey y.devKey := by
    simp only [dev_rank, Rank.Below, Pub.pairBelow, Int.ofNat_lt]
  have e7 : localBefore (ver x).local_ (ver y).local_ ↔ False := Iff.rfl
  have e8 : (ver x).epoch.value < (ver y).epoch.value ↔ x.epoch < y.epoch := Int.ofNat_lt
  have e9 : (ver x).epoch.value = (ver y).epoch.value ↔ x.epoch = y.epoch := Int.natCast_inj
  simp only [Version.Before, Pub.Below, e1, e2, e3, e4, e5, e6, e7, e8, e9, ver_part, Int.natCast_inj, and_false, or_false]

theorem ver_le {x y : Pub} (hx : x.numbers ≠ []) (hy : y.numbers ≠ []) : ver x ≤ₚ ver y ↔ ¬ y.Below x := by
  rw [← ver_lt hy hx, vle_iff, vlt_iff, not_lt]

theorem ver_gt {x y : Pub} (hx : x.numbers ≠ []) (hy : y.numbers ≠ []) : ver x >ₚ ver y ↔ y.Below x := by
  rw [← ver_lt hy hx, vgt_iff, vlt_iff]

theorem ver_ge {x y : Pub} (hx : x.numbers ≠ []) (hy : y.numbers ≠ []) : ver x ≥ₚ ver y ↔ ¬ x.Below y := by
  rw [← ver_lt hx hy, vge_iff, vlt_iff, not_lt]

theorem ver_eq {x y : Pub} (hx : x.numbers ≠ []) (hy : y.numbers ≠ []) : ver x ==ₚ ver y ↔ x.Same y := by
  rw [C02_eq_iff _ _ (ver_valid hx) (ver_valid hy)]
  have hf : Function.Injective phase := by
    intro f g h
    revert h
    cases f <;> cases g <;> decide
  have e1 : (ver x).epoch.value = (ver y).epoch.value ↔ x.epoch = y.epoch := Int.natCast_inj
  have e2 : (ver x).pre = (ver y).pre ↔ x.pre = y.pre := by
    refine (Option.map_injective ?_).eq_iff
    rintro ⟨f, m⟩ ⟨g, n⟩ h
    simp only [Tag.mk.injEq, Int.natCast_inj] at h
    exact Prod.ext (hf h.1) h.2
  have e3 : (ver x).post = (ver y).post ↔ x.post = y.post := by
    refine (Option.map_injective ?_).eq_iff
    intro m n h
    simpa only [Tag.mk.injEq, true_and, Int.natCast_inj] using h
  have e4 : (ver x).dev = (ver y).dev ↔ x.dev = y.dev := by
    refine (Option.map_injective ?_).eq_iff
    intro m n h
    simpa only [Tag.mk.injEq, true_and, Int.natCast_inj] using h
  have e5 : (ver x).local_ = (ver y).local_ ↔ True := by simp [ver]
  simp only [e1, e2, e3, e4, e5, ver_part, Int.natCast_inj, Pub.Same, and_true]

theorem ver_leads (x : Pub) : (ver x).LeadsToFinal ↔ x.Leads := by
  simp [Version.LeadsToFinal, Pub.Leads, ver]

theorem ver_epoch (x y : Pub) : (ver x).epoch = (ver y).epoch ↔ x.epoch = y.epoch := by simp only [ver, Epoch.mk.injEq, Int.natCast_inj]

theorem ver_within (i : Nat) (x a : Pub) :
    (ver x).SamePrefix (i + 1) (ver a) ∨ ((ver a).NumbersBumped i (ver x) ∧ (ver x).LeadsToFinal) ↔ x.Within i a := by
  have e : (ver a).NumbersBumped i (ver x) ↔ x.epoch = a.epoch ∧ AgreeTo i x.numbers a.numbers ∧
      numAt x.numbers i = numAt a.numbers i + 1 ∧ ∀ j > i, numAt x.numbers j = 0 := by
    unfold Version.NumbersBumped
    rw [ver_epoch]
    refine and_congr_right fun _ => ⟨fun h => ⟨fun j hj => ?_, ?_, fun j hj => ?_⟩, fun ⟨h1, h2, h3⟩ j => ?_⟩
    · have := h j
      rw [if_pos hj] at this
      simpa only [ver_part, Int.natCast_inj] using this
    · have := h i
      rw [if_neg (by omega), if_pos rfl] at this
      simp only [ver_part] at this
      omega
    · have := h j
      rw [if_neg (by omega), if_neg (by omega)] at this
      simp only [ver_part] at this
      omega
    · simp only [ver_part]
      split
      · rename_i hj; rw [h1 j hj]
      · split
        · rename_i hj; subst hj; omega
        · rw [h3 j (by omega)]; rfl
  rw [e, ver_leads, Pub.Within]
  simp only [Version.SamePrefix, ver_epoch, ver_part, Int.natCast_inj, AgreeTo]
  tauto

theorem ver_leading (x a : Pub) : (ver x).SameNumbers (ver a) ∧ (ver x).LeadsToFinal ↔ x.Leading a := by
  rw [ver_leads, Pub.Leading]
  simp only [Version.SameNumbers, ver_epoch, ver_part, Int.natCast_inj]
  tauto

theorem ver_stable (a : Pub) : ((ver a).pre = none ∧ (ver a).dev = none) ↔ a.Stable := by simp [ver, Pub.Stable]

/-! ### Operators -/

/-- The version in front of `.*` has one more number. -/
def longer (a : Pub) : Pub := { a with numbers := a.numbers ++ [0] }

def operator (q : Ask) : Operator :=
  if (op q.sign).isWildcard then ⟨op q.sign, ver (longer q.version)⟩ else ⟨op q.sign, ver q.version⟩

theorem ending_iff (s : Sign) : s.ending = ".*" ↔ (op s).isWildcard = true := by cases s <;> decide

theorem ask_valid (q : Ask) (h : q.WellFormed) : (operator q).Valid := by
  obtain ⟨s, a⟩ := q
  obtain ⟨h1, h2, -⟩ := h
  simp only at h1 h2
  unfold operator
  split
  · rename_i hw
    refine ⟨ver_valid (by simp [longer]), ver_nonNeg _, fun ht => ?_⟩
    simp only at ht hw
    rw [ht] at hw
    cases hw
  · refine ⟨ver_valid h1, ver_nonNeg _, fun ht => ?_⟩
    have hs : s = .tildeEqual := by revert ht; cases s <;> simp [op]
    rw [ver_precision]
    exact h2 hs

theorem longer_text (a : Pub) (h : a.numbers ≠ []) (hp : a.pre = none ∧ a.post = none ∧ a.dev = none) :
    (longer a).text = a.text ++ ".".toList ++ "0".toList := by
  simp [Pub.text, longer, hp.1, hp.2.1, hp.2.2, relText_snoc h]

theorem ask_parse (q : Ask) (h : q.WellFormed) : Specifier.parse q.text = .ok (.one (operator q)) := by
  have hv := ask_valid q h
  obtain ⟨s, a⟩ := q
  obtain ⟨h1, -, h3⟩ := h
  simp only at h1 h3
  cases hw : (op s).isWildcard with
  | false =>
    have ho : operator ⟨s, a⟩ = ⟨op s, ver a⟩ := by simp [operator, hw]
    have e : (Specifier.one (operator ⟨s, a⟩)).toShortStr = Ask.text ⟨s, a⟩ := by
      simp [Specifier.toShortStr, ho, Operator.toShortStr, hw, ver_short, op_text, Ask.text, plain_ending hw, join, List.intercalate]
    rw [ho] at e hv ⊢
    rw [← e]
    refine C44_short _ ?_ (ver_canonical h1) hw (.inl rfl)
    unfold Operator.create
    rw [if_neg]
    rintro ⟨ht, hl⟩
    have : 2 ≤ (ver a).release.precision := hv.tildeEqual ht
    simp only [Version.lastIndex, Release.lastIndex] at hl
    omega
  | true =>
    have hp := h3 ((ending_iff s).2 hw)
    have ho : operator ⟨s, a⟩ = ⟨op s, ver (longer a)⟩ := by simp [operator, hw]
    have e : (Specifier.one (operator ⟨s, a⟩)).toShortStr = Ask.text ⟨s, a⟩ := by
      have hr : rstripBy isDecimal (a.text ++ ['.'] ++ ['0']) = a.text ++ ['.'] :=
        rstrip_digits (by simp [NoDigitEnd]; decide) (by decide)
      simp [Specifier.toShortStr, ho, Operator.toShortStr, hw, ver_short, op_text, Ask.text, wild_ending hw, join,
        List.intercalate, longer_text a h1 hp, wildcardString] at hr ⊢
      simp [hr]
    have hz : (ver (longer a)).zeroLast = ver (longer a) := by
      simp [Version.zeroLast, ver, longer, hp.1, hp.2.1, hp.2.2]
    rw [← e, ho, C44_wildcard_short _ (ver_canonical (by simp [longer])) hw rfl, hz]

theorem longer_below (x a : Pub) : x.Below (longer a) ↔ x.Below a := by
  simp only [Pub.Below, Smaller, AgreeTo, longer, num_zero]
  rfl

theorem longer_within (i : Nat) (x a : Pub) : x.Within i (longer a) ↔ x.Within i a := by
  simp only [Pub.Within, AgreeTo, longer, num_zero]

theorem ask_accepts (q : Ask) (h : q.WellFormed) (x : Pub) (hx : x.numbers ≠ []) :
    ∃ b, (operator q).accepts (ver x) = .ok b ∧ (b = true ↔ q.Holds x) := by
  obtain ⟨s, a⟩ := q
  obtain ⟨h1, h2, h3⟩ := h
  simp only at h1 h2 h3
  have ha := ver_valid h1
  have hv := ver_valid hx
  have hpos : 0 < a.numbers.length := List.length_pos_of_ne_nil h1
  have unstable : ¬ a.Stable → (ver a).pre ≠ none ∨ (ver a).dev ≠ none := fun h => by
    rw [← ver_stable] at h
    tauto
  have under : s.ending = ".*" → ∃ b, (ver x).matchesWildcardEqual (ver (longer a)) = .ok b ∧
      (b = true ↔ ¬ x.Below a ∧ x.Within (a.numbers.length - 1) a) := by
    intro he
    have hp := h3 he
    have hl : (longer a).numbers ≠ [] := by simp [longer]
    have hn : (ver (longer a)).release.precision = a.numbers.length + 1 := by rw [ver_precision]; simp [longer]
    obtain ⟨b, hb, hi⟩ := C18_wildcard_general (ver (longer a)) (ver x) (ver_valid hl) (ver_nonNeg _)
      (by rw [hn]; omega) (by simp [ver, longer, hp.1, hp.2.1, hp.2.2]) hv (ver_nonNeg x)
    refine ⟨b, hb, hi.trans ?_⟩
    rw [hn, ver_le hl hx, longer_below, ← longer_within, ← ver_within, show a.numbers.length + 1 - 2 = a.numbers.length - 1 by omega,
      show a.numbers.length + 1 - 1 = a.numbers.length - 1 + 1 by omega]
  cases s with
  | caret =>
    by_cases hs : a.Stable
    · obtain ⟨i, hi⟩ : ∃ i, CaretIndex (ver a).release i := (C13_index _ ha.release).exists
      have hx' : ∀ j, a.FirstNonZero j ↔ CaretIndex (ver a).release j := fun j => by
        simp only [CaretIndex, ver_part, ver_precision, Pub.FirstNonZero, Int.natCast_eq_zero, ne_eq]
      obtain ⟨b, hb, hc⟩ := C13_caret _ _ ha (ver_nonNeg a) ((ver_stable a).2 hs) hv (ver_nonNeg x) i hi
      refine ⟨b, hb, hc.trans ?_⟩
      rw [ver_le h1 hx, ver_within]
      simp only [Ask.Holds, hs, true_and, not_true, false_and, or_false]
      refine and_congr_right fun _ => ⟨fun h => ⟨i, (hx' i).2 hi, h⟩, ?_⟩
      rintro ⟨j, hj, h⟩
      rw [← caretIndex_unique ((hx' j).1 hj) hi]; exact h
    · by_cases hz : numAt a.numbers 0 = 0
      · obtain ⟨b, hb, hc⟩ := C13_caret_unstable_zero _ (ver x) ha (unstable hs) (by rw [ver_part, hz]; rfl) hv
        refine ⟨b, hb, hc.trans ?_⟩
        rw [ver_le h1 hx, ver_leading]
        simp [Ask.Holds, hs, hz]
      · obtain ⟨b, hb, hc⟩ := C13_caret_unstable _ (ver x) ha (ver_nonNeg a) (unstable hs) (by rw [ver_part]; omega) hv (ver_nonNeg x)
        refine ⟨b, hb, hc.trans ?_⟩
        rw [ver_le h1 hx, ver_within 0]
        simp [Ask.Holds, hs, hz]
  | tilde =>
    by_cases hs : a.Stable
    · obtain ⟨b, hb, hc⟩ := C18_tilde _ _ ha (ver_nonNeg a) ((ver_stable a).2 hs) hv (ver_nonNeg x)
      refine ⟨b, hb, hc.trans ?_⟩
      rw [ver_le h1 hx, ver_precision]
      have := ver_within (min 2 a.numbers.length - 1) x a
      rw [show min 2 a.numbers.length - 1 + 1 = min 2 a.numbers.length by omega] at this
      rw [this]
      simp [Ask.Holds, hs]
    · obtain ⟨b, hb, hc⟩ := C18_tilde_unstable _ (ver x) ha (unstable hs) hv
      refine ⟨b, hb, hc.trans ?_⟩
      rw [ver_le h1 hx, ver_leading]
      simp [Ask.Holds, hs]
  | tildeEqual =>
    have h2 := h2 rfl
    obtain ⟨b, hb, hc⟩ := C17_tilde_equal _ _ ha (ver_nonNeg a) (by rw [ver_precision]; exact h2) hv (ver_nonNeg x)
    refine ⟨b, hb, hc.trans ?_⟩
    have := ver_within (a.numbers.length - 2) x a
    rw [show a.numbers.length - 2 + 1 = a.numbers.length - 1 by omega] at this
    rw [ver_le h1 hx, ver_precision, this]
    rfl
  | doubleEqual => exact ⟨_, rfl, ver_eq hx h1⟩
  | equal => exact ⟨_, rfl, ver_eq hx h1⟩
  | notEqual =>
    refine ⟨_, rfl, ?_⟩
    have := ver_eq hx h1
    simp only [operator, Ask.Holds]
    rw [← this]
    show (!PyCmp.eq (ver x) (ver a)) = true ↔ _
    simp
  | less => exact ⟨_, rfl, ver_lt hx h1⟩
  | lessOrEqual => exact ⟨_, rfl, ver_le hx h1⟩
  | greater => exact ⟨_, rfl, ver_gt hx h1⟩
  | greaterOrEqual => exact ⟨_, rfl, ver_ge hx h1⟩
  | under => exact under rfl
  | underSingle => exact under rfl
  | notUnder =>
    obtain ⟨b, hb, hc⟩ := under rfl
    refine ⟨!b, ?_, ?_⟩
    · show (ver x).matchesWildcardNotEqual (ver (longer a)) = _
      simp [Version.matchesWildcardNotEqual, hb, bind, Except.bind]
    · simp only [Ask.Holds, ← hc]; simp

theorem pipe_num (n : Nat) : '|' ∉ numText n := fun h => absurd (numeral_digits n _ h) (by decide)

theorem pipe_pub (p : Pub) : '|' ∉ p.text := by
  obtain ⟨e, l, pre, post, dev⟩ := p
  simp only [Pub.text, List.mem_append, not_or]
  refine ⟨⟨⟨⟨?_, pipe_relText l⟩, ?_⟩, ?_⟩, ?_⟩
  · split
    · simp
    · simp only [List.mem_append, not_or]; exact ⟨pipe_num e, by decide⟩
  · rcases pre with _ | ⟨f, n⟩
    · simp
    · cases f <;> simp only [List.mem_append, not_or] <;> exact ⟨by decide, pipe_num n⟩
  · rcases post with _ | n
    · simp
    · simp only [List.mem_append, not_or]; exact ⟨by decide, pipe_num n⟩
  · rcases dev with _ | n
    · simp
    · simp only [List.mem_append, not_or]; exact ⟨by decide, pipe_num n⟩

theorem pipe_ask (q : Ask) : '|' ∉ q.text := by
  simp only [Ask.text, List.mem_append, not_or]
  exact ⟨⟨by cases q.sign <;> decide, pipe_pub _⟩, by cases q.sign <;> decide⟩

theorem ask_set (lim : Nat) (q : Ask) (h : q.WellFormed) (hb : ¬ (q.version.pre = none ∧ q.version.post ≠ none ∧ q.version.dev ≠ none)) :
    ∃ z, VSet.parse lim q.text = .ok z := by
  have e : VSet.parse lim q.text = (operator q).toSet lim := by
    unfold VSet.parse
    rw [ask_parse q h]
    show (Specifier.one (operator q)).toSet lim = _
    rw [Specifier.toSet]
  have hb : ¬ (operator q).Broken := by
    rintro ⟨hd, -⟩
    apply hb
    unfold operator at hd
    split at hd <;> simpa [Version.IsDevOfPost, ver, longer] using hd
  obtain ⟨z, hz⟩ := (C16_failure _ (ask_valid q h) lim).1 hb
  exact ⟨z, e ▸ hz lim⟩

end FromPublic

open FromText FromPublic

/-! ## C123 -/

/-- Requirements all of which are to hold, with commas between them. -/
def askAll (l : List Ask) : PyStr := ",".toList.intercalate (l.map Ask.text)

/-- Such requirements, one of which is to hold, with bars between them. -/
def askAny (f : List (List Ask)) : PyStr := "||".toList.intercalate (f.map askAll)

theorem FromPublic.pub_parse {x : Pub} (hx : x.numbers ≠ []) : Version.parse x.text = .ok (FromPublic.ver x) := by
  rw [← FromPublic.ver_short]; exact C38_short_round_trip _ (FromPublic.ver_canonical hx)

/-- C123. Public versions are read as versions that are ordered as PEP 440 says, and printed again by the same strings. -/
theorem C123_order (x y : Pub) (hx : x.numbers ≠ []) (hy : y.numbers ≠ []) :
    ∃ v w, Version.parse x.text = .ok v ∧ Version.parse y.text = .ok w ∧ (v <ₚ w ↔ x.Below y) ∧ (v ==ₚ w ↔ x.Same y) ∧
      v.toShortStr = x.text ∧ v.toPep440Str = .ok x.text := by
  refine ⟨_, _, pub_parse hx, pub_parse hy, FromPublic.ver_lt hx hy, FromPublic.ver_eq hx hy, FromPublic.ver_short x, ?_⟩
  unfold Version.toPep440Str
  rw [C14_unchanged _ (FromPublic.ver_valid hx) ?_ ?_]
  · exact congrArg _ (FromPublic.ver_short x)
  · intro t ht
    obtain ⟨⟨f, n⟩, -, rfl⟩ := Option.map_eq_some_iff.1 ht
    cases f <;> simp [phase]
  · intro t ht
    obtain ⟨n, -, rfl⟩ := Option.map_eq_some_iff.1 ht
    rfl

example : (⟨1, [2, 0], some (.rc, 1), some 2, some 3⟩ : Pub).text = "1!2.0rc1.post2.dev3".toList := by decide +kernel
example : (⟨0, [2], some (.b, 10), none, none⟩ : Pub).Below ⟨0, [2, 0], some (.rc, 1), none, none⟩ :=
  .inr ⟨rfl, .inr ⟨fun i => by rcases i with _ | _ | i <;> rfl, .inl (.inl (by decide))⟩⟩
example : (⟨0, [2], none, none, some 7⟩ : Pub).Below ⟨0, [2, 0], some (.a, 1), none, none⟩ :=
  .inr ⟨rfl, .inr ⟨fun i => by rcases i with _ | _ | i <;> rfl, .inl (.inl (by decide))⟩⟩

/-- C123. A requirement is read as a specifier that accepts a public version exactly if it satisfies the requirement. -/
theorem C123_single (q : Ask) (hq : q.WellFormed) (x : Pub) (hx : x.numbers ≠ []) :
    ∃ s v b, Specifier.parse q.text = .ok s ∧ Version.parse x.text = .ok v ∧ s.accepts v = .ok b ∧ (b = true ↔ q.Holds x) := by
  obtain ⟨b, h1, h2⟩ := ask_accepts q hq x hx
  exact ⟨_, _, b, ask_parse q hq, pub_parse hx, by simpa only [Specifier.accepts] using h1, h2⟩

/-- `^1.2` accepts `2.0rc1`, which leads to 2. -/
example : (⟨.caret, ⟨0, [1, 2], none, none, none⟩⟩ : Ask).Holds ⟨0, [2, 0], some (.rc, 1), none, none⟩ := by
  refine ⟨?_, .inl ⟨⟨rfl, rfl⟩, 0, ⟨by decide, by decide, .inl (by decide)⟩, rfl, .inr ⟨.inl (by decide), by decide, rfl, ?_⟩⟩⟩
  · rintro (h | ⟨-, ⟨i, h1, h2⟩ | ⟨h, -⟩⟩)
    · exact absurd h (by decide)
    · rcases i with _ | i
      · exact absurd h2 (by decide)
      · exact absurd (h1 0 (by omega)) (by decide)
    · exact absurd (h 0) (by decide)
  · intro j hj
    rcases j with _ | _ | j
    · omega
    · rfl
    · rfl
example : (⟨.caret, ⟨0, [1, 2], none, none, none⟩⟩ : Ask).text = "^1.2".toList ∧
    ((Specifier.parse "^1.2".toList).bind fun s => s.accepts (exVersion [2, 0] (some rcTag))) = .ok true := ⟨by decide +kernel, by rfl⟩

theorem FromPublic.all_parse (l : List Ask) (hl : l ≠ []) (h : ∀ q ∈ l, q.WellFormed) :
    ('|' ∉ askAll l ∧ ∀ lim, (∀ q ∈ l, ¬ (q.version.pre = none ∧ q.version.post ≠ none ∧ q.version.dev ≠ none)) →
      ∃ z, VSet.parse lim (askAll l) = .ok z) ∧ ∃ s, Specifier.parse (askAll l) = .ok s ∧
      ∀ x : Pub, x.numbers ≠ [] → (s.accepts (FromPublic.ver x) = .ok true ↔ ∀ q ∈ l, q.Holds x) := by
  induction l with
  | nil => exact absurd rfl hl
  | cons n l ih =>
    have hn := h n (by simp)
    have one : ∀ x : Pub, x.numbers ≠ [] → ((Specifier.one (FromPublic.operator n)).accepts (FromPublic.ver x) = .ok true ↔ n.Holds x) := by
      intro x hx
      obtain ⟨b, h1, h2⟩ := ask_accepts n hn x hx
      rw [Specifier.accepts, h1, ← h2]
      simp
    cases l with
    | nil => exact ⟨⟨by simpa [askAll, List.intercalate] using pipe_ask n,
        fun lim hb => by simpa [askAll, List.intercalate] using ask_set lim n hn (hb n (by simp))⟩, _,
        by simpa [askAll, List.intercalate] using ask_parse n hn, by simpa using one⟩
    | cons m l =>
      obtain ⟨⟨hp, hs⟩, s, h1, h2⟩ := ih (by simp) (fun n hn => h n (List.mem_cons_of_mem _ hn))
      have e : askAll (n :: m :: l) = n.text ++ ",".toList ++ askAll (m :: l) := by
        simp [askAll, List.intercalate_cons_cons]
      obtain ⟨z, z1, z2⟩ := C75_and _ _ (pipe_ask n) hp _ _ (ask_parse n hn) h1
      refine ⟨⟨?_, fun lim hb => ?_⟩, z, e ▸ z1, fun x hx => ?_⟩
      · rw [e]
        simp only [List.mem_append, not_or]
        exact ⟨⟨pipe_ask n, by decide⟩, hp⟩
      · obtain ⟨p, hp'⟩ := ask_set lim n hn (hb n (by simp))
        obtain ⟨q, hq⟩ := hs lim fun q hq => hb q (List.mem_cons_of_mem _ hq)
        obtain ⟨r, -, hr, -⟩ := C75_and_set lim lim _ _ (pipe_ask n) hp _ _ hp' hq
        exact ⟨r, e ▸ hr⟩
      · rw [z2, one x hx, h2 x hx]; simp

theorem FromPublic.any_parse (f : List (List Ask)) (hf : f ≠ []) (h : ∀ l ∈ f, l ≠ [] ∧ ∀ q ∈ l, q.WellFormed) :
    ∃ s, Specifier.parse (askAny f) = .ok s ∧
      ∀ x : Pub, x.numbers ≠ [] → (s.accepts (FromPublic.ver x) = .ok true ↔ ∃ l ∈ f, ∀ q ∈ l, q.Holds x) := by
  induction f with
  | nil => exact absurd rfl hf
  | cons l f ih =>
    obtain ⟨-, s, h1, h2⟩ := FromPublic.all_parse l (h l (by simp)).1 (h l (by simp)).2
    cases f with
    | nil => exact ⟨s, by simpa [askAny, List.intercalate] using h1, by simpa using h2⟩
    | cons m f =>
      obtain ⟨t, t1, t2⟩ := ih (by simp) (fun n hn => h n (List.mem_cons_of_mem _ hn))
      obtain ⟨z, -, z1, z2⟩ := C75_or _ _ _ _ h1 t1
      refine ⟨z, ?_, fun x hx => ?_⟩
      · have e : askAny (l :: m :: f) = askAll l ++ "||".toList ++ askAny (m :: f) := by
          simp [askAny, List.intercalate_cons_cons]
        exact e ▸ z1
      · rw [z2, h2 x hx, t2 x hx]; simp

/-- C123. Requirements with commas and bars between them, and with whitespace anywhere, are read as a specifier that accepts a
public version exactly if it satisfies all requirements of one of the groups. -/
theorem C123_formula (f : List (List Ask)) (hf : f ≠ []) (h : ∀ l ∈ f, l ≠ [] ∧ ∀ q ∈ l, q.WellFormed) (t : PyStr)
    (ht : t.filter (fun c => !isSpace c) = askAny f) (x : Pub) (hx : x.numbers ≠ []) :
    ∃ s v b, Specifier.parse t = .ok s ∧ Version.parse x.text = .ok v ∧ s.accepts v = .ok b ∧
      (b = true ↔ ∃ l ∈ f, ∀ q ∈ l, q.Holds x) := by
  obtain ⟨s, h1, h2⟩ := FromPublic.any_parse f hf h
  obtain ⟨b, hb⟩ := C32_accepts_total s (C52_valid _ _ h1) (FromPublic.ver x)
  refine ⟨s, _, b, (spaced ht).trans h1, pub_parse hx, hb, ?_⟩
  rw [← h2 x hx, hb]; simp

/-- `>=1.0rc1, <1 || ==3.*` accepts `3.1.dev4` by the second group. -/
def exAsks : List (List Ask) :=
  [[⟨.greaterOrEqual, { numbers := [1, 0], pre := some (.rc, 1) }⟩, ⟨.less, { numbers := [1] }⟩], [⟨.under, { numbers := [3] }⟩]]

example : (">=1.0rc1, <1 | | ==3.*".toList).filter (fun c => !isSpace c) = askAny exAsks := by decide +kernel
example : ∀ l ∈ exAsks, l ≠ [] ∧ ∀ q ∈ l, q.WellFormed := by simp [exAsks, Ask.WellFormed, Sign.ending]
example : ∃ l ∈ exAsks, ∀ q ∈ l, q.Holds { numbers := [3, 1], dev := some 4 } := by
  refine ⟨_, .tail _ (.head _), fun q hq => ?_⟩
  rw [List.mem_singleton] at hq
  subst hq
  refine ⟨?_, rfl, .inl (by decide)⟩
  rintro (h | ⟨-, ⟨i, h1, h2⟩ | ⟨h, -⟩⟩)
  · exact absurd h (by decide)
  · rcases i with _ | _ | i
    · exact absurd h2 (by decide)
    · exact absurd h2 (by decide)
    · exact absurd (h1 1 (by omega)) (by decide)
  · exact absurd (h 1) (by decide)

/-- C123. When the same string is read as a version set, the set contains the version under the same condition; one group
alone is read as a set if no operand is a development release of a post-release. -/
theorem C123_set (f : List (List Ask)) (hf : f ≠ []) (h : ∀ l ∈ f, l ≠ [] ∧ ∀ q ∈ l, q.WellFormed) (t : PyStr)
    (ht : t.filter (fun c => !isSpace c) = askAny f) (x : Pub) (hx : x.numbers ≠ []) :
    ∃ v, Version.parse x.text = .ok v ∧ ∀ lim,
      (f.length = 1 → (∀ l ∈ f, ∀ q ∈ l, ¬ (q.version.pre = none ∧ q.version.post ≠ none ∧ q.version.dev ≠ none)) →
        ∃ z, VSet.parse lim t = .ok z) ∧
      ∀ z, VSet.parse lim t = .ok z → (z.contains v = true ↔ ∃ l ∈ f, ∀ q ∈ l, q.Holds x) := by
  obtain ⟨s, h1, h2⟩ := FromPublic.any_parse f hf h
  have reads := spaced ht
  refine ⟨_, pub_parse hx, fun lim => ⟨fun hl hb => ?_, fun z hz => ?_⟩⟩
  · obtain ⟨l, rfl⟩ := List.length_eq_one_iff.1 hl
    have hp : VSet.parse lim t = VSet.parse lim (askAny [l]) := by unfold VSet.parse; rw [reads]
    rw [hp]
    simpa [askAny, List.intercalate] using (FromPublic.all_parse l (h l (by simp)).1 (h l (by simp)).2).1.2 lim (hb l (by simp))
  · obtain ⟨-, y, t1, t2⟩ := C53_set lim _ z hz
    rw [reads, h1] at t1
    cases t1
    obtain ⟨b, b1, b2⟩ := t2 (FromPublic.ver x)
    rw [vset_contains_iff_mem, ← b2, ← h2 x hx, b1]; simp

example : VSet.parse 5 "~=1.2rc1".toList = .ok (.item (.range ⟨some (exVersion [1, 2] (some rcTag)), some (exVersion [2, 0]), true, false⟩)) ∧
    (⟨.tildeEqual, { numbers := [1, 2], pre := some (.rc, 1) }⟩ : Ask).text = "~=1.2rc1".toList := by decide +kernel

end Verif
