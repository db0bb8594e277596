import Verif.Props.FromPublic
import Verif.Props.Pep440Clauses
/-!
# C128: candidates with a local segment

What requirements on versions without a local segment say about versions with one; then from text to answer, as in C123, for
local builds of public versions.
-/

namespace Verif
open scoped Verif
open Pep440 (Public)

namespace LocalBuilds

theorem next_local {v w : Version} {r : Except PyErr Release}
    (h : (r.bind fun x => .ok (v.withoutTagsAndLocal.setRelease x)) = Except.ok w) : w.local_ = none := by
  rcases r with e | r
  · cases h
  · cases h; rfl

theorem at_local {v w : Version} {i : Int} (h : v.nextAt i = .ok w) : w.local_ = none := by
  unfold Version.nextAt at h
  dsimp only at h
  split at h
  · exact next_local (r := v.release.nextAt i) h
  · exact next_local (r := .ok v.release) h
theorem major_local {v w : Version} (h : v.nextMajor = .ok w) : w.local_ = none := by
  unfold Version.nextMajor at h
  dsimp only at h
  split at h
  · exact next_local (r := v.release.nextMajor) h
  · exact next_local (r := .ok v.release) h
theorem minor_local {v w : Version} (h : v.nextMinor = .ok w) : w.local_ = none := by
  unfold Version.nextMinor at h
  dsimp only at h
  split at h
  · exact next_local (r := v.release.nextMinor) h
  · exact next_local (r := .ok v.release) h
theorem micro_local {v w : Version} (h : v.nextMicro = .ok w) : w.local_ = none := by
  unfold Version.nextMicro at h
  dsimp only at h
  split at h
  · exact next_local (r := v.release.nextMicro) h
  · exact next_local (r := .ok v.release) h

theorem breaking_local {v w : Version} (h : v.nextBreaking = .ok w) : w.local_ = none := by
  unfold Version.nextBreaking at h
  rcases hm : v.major with e | m
  · rw [hm] at h; cases h
  rw [hm] at h
  simp only [bind, Except.bind] at h
  split at h
  · rcases hn : v.minor with e | n
    · rw [hn] at h; cases h
    rw [hn] at h
    simp only at h
    split at h
    · exact minor_local h
    · split at h
      · exact micro_local h
      · split at h
        · exact minor_local h
        · exact major_local h
  · exact major_local h

theorem tilde_local {v w : Version} (h : v.nextTildeBreaking = .ok w) : w.local_ = none := by
  unfold Version.nextTildeBreaking at h
  split at h
  · exact minor_local h
  · exact major_local h

theorem tilde_equal_local {v w : Version} (h : v.nextTildeEqualBreaking = .ok w) : w.local_ = none := by
  unfold Version.nextTildeEqualBreaking at h
  simp only at h
  split at h
  · exact at_local h
  · cases h

theorem wildcard_local {v w : Version} (h : v.nextWildcardBreaking = .ok (some w)) : w.local_ = none := by
  unfold Version.nextWildcardBreaking at h
  simp only at h
  split at h
  · split at h
    · cases h
    · rcases hn : v.nextAt (v.lastIndex - 1) with e | x
      · rw [hn] at h; cases h
      · rw [hn] at h; cases h
        exact at_local hn
  · rcases hn : v.nextAt v.lastIndex with e | x
    · rw [hn] at h; cases h
    · rw [hn] at h; cases h
      exact at_local hn

variable {a v : Version}

theorem lt_public (ha : a.local_ = none) : PyCmp.lt v a = PyCmp.lt (Public v) a := by
  rw [Bool.eq_iff_iff, vlt_iff, vlt_iff, public_lt_iff ha]

theorem ge_public (ha : a.local_ = none) : PyCmp.ge v a = PyCmp.ge (Public v) a := by
  rw [Bool.eq_iff_iff, vge_iff, vge_iff, ← not_lt, ← not_lt, public_lt_iff ha]

theorem le_public (ha : a.local_ = none) : PyCmp.le a v = PyCmp.le a (Public v) := by
  rw [Bool.eq_iff_iff, vle_iff, vle_iff, ← not_lt, ← not_lt, public_lt_iff ha]

theorem eq_public (ha : a.local_ = none) (hv : v.local_ ≠ none) : PyCmp.eq v a = false := by
  rw [Bool.eq_false_iff, ne_eq, veq_iff, public_eq_iff ha]
  exact fun h => hv h.2

theorem chained_public {next : Version → Except PyErr Version} (hn : ∀ w, next a = .ok w → w.local_ = none) (ha : a.local_ = none) :
    Version.chained next v a = Version.chained next (Public v) a := by
  unfold Version.chained
  rw [le_public ha]
  split
  · rcases h : next a with e | w
    · rfl
    · simp only [bind, Except.bind]
      rw [lt_public (hn w h)]
  · rfl

theorem wildcard_public (ha : a.local_ = none) : v.matchesWildcardEqual a = (Public v).matchesWildcardEqual a := by
  unfold Version.matchesWildcardEqual
  rcases h : a.nextWildcardBreaking with e | _ | w
  · rfl
  · rfl
  · simp only [bind, Except.bind]
    rw [le_public ha, lt_public (wildcard_local h)]

end LocalBuilds

open LocalBuilds

/-- What is asked of the public part of a local version: `==` and `!=` cannot be told by it, `<=` wants it to be smaller, `>` wants
it not to be smaller, all others want of it what they want of the version. -/
def OpType.ofPublic : OpType → Option OpType
  | .doubleEqual | .equal | .notEqual => none
  | .lessOrEqual => some .less
  | .greater => some .greaterOrEqual
  | t => some t

/-- C128. Requirements on a version without local segment, about a version with one: `==` and `=` never accept it, `!=` always does,
and the others are decided by its public part: `<=` by `<`, `>` by `>=`, and all others by themselves. -/
theorem C128_operator (t : OpType) (a v : Version) (ha : a.local_ = none) (hv : v.local_ ≠ none) :
    (⟨t, a⟩ : Operator).accepts v = match t.ofPublic with
      | some u => (⟨u, a⟩ : Operator).accepts (Public v)
      | none => .ok (decide (t = .notEqual)) := by
  cases t with
  | doubleEqual | equal => exact congrArg _ (eq_public ha hv)
  | notEqual =>
    show Except.ok (!PyCmp.eq v a) = _
    rw [eq_public ha hv]; rfl
  | less => exact congrArg Except.ok (lt_public ha)
  | greaterOrEqual => exact congrArg Except.ok (ge_public ha)
  | lessOrEqual =>
    show Except.ok (PyCmp.le v a) = Except.ok (PyCmp.lt (Public v) a)
    rw [← lt_public ha]
    refine congrArg _ ?_
    rw [Bool.eq_iff_iff, vle_iff, vlt_iff, le_iff_lt_or_eq, public_eq_iff ha]
    simp [hv]
  | greater =>
    show Except.ok (PyCmp.gt v a) = Except.ok (PyCmp.ge (Public v) a)
    rw [← ge_public ha]
    refine congrArg _ ?_
    rw [Bool.eq_iff_iff, vgt_iff, vge_iff, le_iff_lt_or_eq, eq_comm, public_eq_iff ha]
    simp [hv]
  | caret => exact chained_public (fun w h => breaking_local h) ha
  | tilde => exact chained_public (fun w h => tilde_local h) ha
  | tildeEqual => exact chained_public (fun w h => tilde_equal_local h) ha
  | wildcardDoubleEqual | wildcardEqual => exact wildcard_public ha
  | wildcardNotEqual =>
    show v.matchesWildcardNotEqual a = (Public v).matchesWildcardNotEqual a
    unfold Version.matchesWildcardNotEqual
    rw [wildcard_public ha]

/-- `>1` accepts 1+a because `>=1` accepts 1, and `<=1` does not because `<1` does not. -/
example : (⟨.greater, exVersion [1]⟩ : Operator).accepts (exVersion [1] none none none (some ⟨[.str "a".toList]⟩)) = .ok true ∧
    (⟨.greaterOrEqual, exVersion [1]⟩ : Operator).accepts (exVersion [1]) = .ok true ∧
    (⟨.lessOrEqual, exVersion [1]⟩ : Operator).accepts (exVersion [1] none none none (some ⟨[.str "a".toList]⟩)) = .ok false ∧
    (⟨.less, exVersion [1]⟩ : Operator).accepts (exVersion [1]) = .ok false := by decide +kernel

/-! ## From text to answer -/

/-- A piece of a local label. -/
inductive LabelPart
  | num (n : Nat)
  | word (s : PyStr)
  deriving DecidableEq, Repr

namespace LabelPart

def text : LabelPart → PyStr
  | num n => numText n
  | word s => s

/-- Words are of small letters and digits, and not all are digits. -/
def WellFormed : LabelPart → Prop
  | num _ => True
  | word s => (∀ c ∈ s, ('a' ≤ c ∧ c ≤ 'z') ∨ ('0' ≤ c ∧ c ≤ '9')) ∧ ∃ c ∈ s, 'a' ≤ c ∧ c ≤ 'z'

/-- Words come before numbers; numbers are ordered by value, words by the codes of their characters. -/
def Below : LabelPart → LabelPart → Prop
  | num m, num n => m < n
  | word _, num _ => True
  | num _, word _ => False
  | word s, word t => s.map Char.toNat < t.map Char.toNat

end LabelPart

/-- A local build of a public version. -/
structure Build where
  base : Pub
  label : List LabelPart

namespace Build

/-- `base+piece.piece.piece`. -/
def text (x : Build) : PyStr := x.base.text ++ "+".toList ++ List.intercalate ".".toList (x.label.map LabelPart.text)

def WellFormed (x : Build) : Prop := x.base.numbers ≠ [] ∧ x.label ≠ [] ∧ ∀ p ∈ x.label, p.WellFormed

def part : LabelPart → LocalPart
  | .num n => .int n
  | .word s => .str s

def ver (x : Build) : Version := { FromPublic.ver x.base with local_ := some ⟨x.label.map part⟩ }

end Build

/-- What a requirement on a public version wants of the public version of which a candidate is a local build. -/
def Ask.HoldsOfBase (q : Ask) (x : Pub) : Prop :=
  match q.sign with
  | .doubleEqual | .equal => False
  | .notEqual => True
  | .lessOrEqual => x.Below q.version
  | .greater => ¬ x.Below q.version
  | _ => q.Holds x

namespace LocalBuilds

theorem small_letter {c : Char} (h : 'a' ≤ c ∧ c ≤ 'z') : IsLetter c ∧ ¬ IsDigit c := by
  have h1 : 97 ≤ c.toNat := h.1
  have h2 : c.toNat ≤ 122 := h.2
  have e : foldCase c = c := by
    unfold foldCase
    rw [if_neg, if_neg, if_neg, if_neg]
    · rintro rfl; exact absurd h2 (by decide)
    · rintro rfl; exact absurd h2 (by decide)
    · rintro (rfl | rfl) <;> exact absurd h2 (by decide)
    · rintro ⟨-, h⟩
      have : c.toNat ≤ 90 := h
      omega
  refine ⟨by unfold IsLetter; rw [e]; exact h, fun hd => ?_⟩
  have : c.toNat ≤ 57 := hd.2
  omega

theorem part_canonical {p : LabelPart} (h : p.WellFormed) : (Build.part p).Canonical := by
  cases p with
  | num n => exact Int.natCast_nonneg n
  | word s =>
    obtain ⟨h1, c, hc, h2⟩ := h
    refine ⟨⟨List.ne_nil_of_mem hc, fun d hd => (h1 d hd).imp (fun h => (small_letter h).1) id⟩, fun hd => ?_⟩
    exact (small_letter h2).2 (hd.2 c hc)

theorem part_text (p : LabelPart) : (Build.part p).toStr = p.text := by
  cases p with
  | num n => exact (FromText.numeral_eq n).symm
  | word s => rfl

theorem build_short (x : Build) : x.ver.toShortStr = x.text := by
  have h : x.ver.toShortStr = (FromPublic.ver x.base).toShortStr ++ ("+".toList ++ join ['.'] ((x.label.map Build.part).map LocalPart.toStr)) := by
    unfold Version.toShortStr
    rw [FromPublic.join_flatten, FromPublic.join_flatten]
    simp only [List.flatten_append, Build.ver, List.append_assoc]
    congr 1
    simp [FromPublic.ver, Version.part, Local.toStr]
  rw [h, FromPublic.ver_short, List.map_map]
  have e : (LocalPart.toStr ∘ Build.part) = LabelPart.text := funext part_text
  rw [e]
  simp [Build.text, join]

theorem build_valid {x : Build} (h : x.WellFormed) : x.ver.Valid := by
  have hv := FromPublic.ver_valid h.1
  refine ⟨hv.1, hv.2, hv.3, hv.4, ?_⟩
  rintro l ⟨⟩
  simpa using h.2.1

theorem build_canonical {x : Build} (h : x.WellFormed) : x.ver.Canonical := by
  have hv := FromPublic.ver_canonical h.1
  refine ⟨build_valid h, hv.2, hv.3, hv.4, hv.5, hv.6, ?_⟩
  rintro l ⟨⟩ p hp
  obtain ⟨q, hq, rfl⟩ := List.mem_map.1 hp
  exact part_canonical (h.2.2 q hq)

theorem build_parse {x : Build} (h : x.WellFormed) : Version.parse x.text = .ok x.ver := by
  rw [← build_short]; exact C38_short_round_trip _ (build_canonical h)

theorem build_normal {x : Build} (h : x.WellFormed) : x.ver.toPep440Str = .ok x.text := by
  unfold Version.toPep440Str
  rw [C14_unchanged _ (build_valid h) ?_ ?_]
  · exact congrArg _ (build_short x)
  · intro t ht
    obtain ⟨⟨f, n⟩, -, rfl⟩ := Option.map_eq_some_iff.1 ht
    cases f <;> simp [FromPublic.phase]
  · intro t ht
    obtain ⟨n, -, rfl⟩ := Option.map_eq_some_iff.1 ht
    rfl

theorem build_public (x : Build) : Public x.ver = FromPublic.ver x.base := rfl

/-! ### The order -/

theorem part_before (p q : LabelPart) : (Build.part p).Before (Build.part q) ↔ p.Below q := by
  cases p <;> cases q <;> simp [Build.part, LocalPart.Before, LabelPart.Below]

theorem part_injective : Function.Injective Build.part := by
  intro p q h
  cases p <;> cases q <;> simp [Build.part] at h ⊢ <;> first | exact h | exact_mod_cast h

theorem label_before (l m : List LabelPart) :
    List.Lex LocalPart.Before (l.map Build.part) (m.map Build.part) ↔ List.Lex LabelPart.Below l m := by
  induction l generalizing m with
  | nil =>
    cases m with
    | nil => exact ⟨fun h => (nomatch h), fun h => (nomatch h)⟩
    | cons q m => exact ⟨fun _ => .nil, fun _ => .nil⟩
  | cons p l ih =>
    cases m with
    | nil => exact ⟨fun h => (nomatch h), fun h => (nomatch h)⟩
    | cons q m =>
      simp only [List.map_cons]
      constructor
      · intro h
        generalize hp : Build.part p = p' at h
        generalize hq : Build.part q = q' at h
        cases h with
        | rel h => subst hp hq; exact .rel ((part_before p q).1 h)
        | cons h =>
          have := part_injective (hp.trans hq.symm)
          subst this
          exact .cons ((ih m).1 h)
      · intro h
        cases h with
        | rel h => exact .rel ((part_before p q).2 h)
        | cons h => exact .cons ((ih m).2 h)

theorem keys_same {x y : Pub} (h1 : x.preKey = y.preKey) (h2 : x.postKey = y.postKey) (h3 : x.devKey = y.devKey) :
    x.pre = y.pre ∧ x.post = y.post ∧ x.dev = y.dev := by
  obtain ⟨e, l, p, q, d⟩ := x
  obtain ⟨e', l', p', q', d'⟩ := y
  have hq : q = q' := by
    rcases q with _ | m <;> rcases q' with _ | n <;> simp_all [Pub.postKey]
  have hd : d = d' := by
    rcases d with _ | m <;> rcases d' with _ | n <;> simp_all [Pub.devKey]
  subst hq hd
  refine ⟨?_, rfl, rfl⟩
  rcases p with _ | ⟨_ | _ | _, m⟩ <;> rcases p' with _ | ⟨_ | _ | _, n⟩ <;> rcases q with _ | q <;> rcases d with _ | d <;>
    simp_all [Pub.preKey]

theorem build_lt {x y : Build} (hx : x.WellFormed) (hy : y.WellFormed) :
    x.ver <ₚ y.ver ↔ x.base.Below y.base ∨ x.base.Same y.base ∧ List.Lex LabelPart.Below x.label y.label := by
  rw [C60_order _ _ (build_valid hx) (build_valid hy) (FromPublic.ver_nonNeg x.base) (FromPublic.ver_nonNeg y.base),
    ← FromPublic.ver_lt hx.1 hy.1,
    C60_order _ _ (FromPublic.ver_valid hx.1) (FromPublic.ver_valid hy.1) (FromPublic.ver_nonNeg x.base) (FromPublic.ver_nonNeg y.base),
    ← label_before]
  have e : x.base.Same y.base ↔ (FromPublic.ver x.base).epoch.value = (FromPublic.ver y.base).epoch.value ∧
      (∀ i, (FromPublic.ver x.base).release.part i = (FromPublic.ver y.base).release.part i) ∧
      (FromPublic.ver x.base).preRank = (FromPublic.ver y.base).preRank ∧
      (FromPublic.ver x.base).postRank = (FromPublic.ver y.base).postRank ∧
      (FromPublic.ver x.base).devRank = (FromPublic.ver y.base).devRank := by
    rw [← FromPublic.ver_eq hx.1 hy.1, C02_eq_iff _ _ (FromPublic.ver_valid hx.1) (FromPublic.ver_valid hy.1)]
    refine and_congr_right fun _ => and_congr_right fun _ => ⟨?_, ?_⟩
    · rintro ⟨h1, h2, h3, -⟩
      simp only [Version.preRank, Version.postRank, Version.devRank, h1, h2, h3, and_self]
    · rintro ⟨h1, h2, h3⟩
      simp only [FromPublic.pre_rank, FromPublic.dev_rank, Prod.mk.injEq, Int.natCast_inj] at h1 h3
      have k1 : x.base.preKey = y.base.preKey :=
        Prod.ext ((FromPublic.placeOf_lt (FromPublic.preKey_le _) (FromPublic.preKey_le _)).2.1 h1.1) h1.2
      have k2 : x.base.postKey = y.base.postKey := by
        rcases FromPublic.post_rank x.base with ⟨-, a1, a2⟩ | ⟨m, -, a1, a2⟩ <;>
          rcases FromPublic.post_rank y.base with ⟨-, a3, a4⟩ | ⟨n, -, a3, a4⟩ <;> rw [a1, a3] at h2 <;> rw [a2, a4] <;> simp at h2
        have : m = n := by exact_mod_cast h2
        rw [this]
      obtain ⟨g1, g2, g3⟩ := keys_same k1 k2 (Prod.ext h3.1 h3.2)
      simp only [FromPublic.ver, g1, g2, g3, and_self]
  rw [e]
  have b : ∀ P Q R S A B C D E F L : Prop, (A ∨ B ∧ (C ∨ D ∧ (E ∨ F ∧ (P ∨ Q ∧ (R ∨ S ∧ L))))) ↔
      (A ∨ B ∧ (C ∨ D ∧ (E ∨ F ∧ (P ∨ Q ∧ (R ∨ S ∧ False))))) ∨ (B ∧ D ∧ F ∧ Q ∧ S) ∧ L := by
    intro P Q R S A B C D E F L
    tauto
  exact b _ _ _ _ _ _ _ _ _ _ _

end LocalBuilds

/-- C128. Local builds are read as versions that are ordered as PEP 440 says: by the public version, then by the label; against a
public version they are just behind it. They are printed again by the same strings. -/
theorem C128_order (x y : Build) (hx : x.WellFormed) (hy : y.WellFormed) :
    ∃ v w, Version.parse x.text = .ok v ∧ Version.parse y.text = .ok w ∧
      (v <ₚ w ↔ x.base.Below y.base ∨ x.base.Same y.base ∧ List.Lex LabelPart.Below x.label y.label) ∧
      (v ==ₚ w ↔ x.base.Same y.base ∧ x.label = y.label) ∧ v.toShortStr = x.text ∧ v.toPep440Str = .ok x.text := by
  refine ⟨_, _, build_parse hx, build_parse hy, build_lt hx hy, ?_, build_short x, build_normal hx⟩
  rw [C02_eq_iff _ _ (build_valid hx) (build_valid hy), ← FromPublic.ver_eq hx.1 hy.1,
    C02_eq_iff _ _ (FromPublic.ver_valid hx.1) (FromPublic.ver_valid hy.1)]
  have e : x.ver.local_ = y.ver.local_ ↔ x.label = y.label := by
    simp only [Build.ver, Option.some.injEq, Local.mk.injEq]
    exact (List.map_injective_iff.2 part_injective).eq_iff
  rw [e]
  show (_ ∧ _ ∧ _ ∧ _ ∧ _ ∧ _) ↔ (_ ∧ _ ∧ _ ∧ _ ∧ _ ∧ none = none) ∧ _
  simp only [and_assoc, true_and]
  rfl

/-- C128. Against a public version, a local build is smaller exactly if its public version is, and never equal. -/
theorem C128_public (x : Build) (hx : x.WellFormed) (y : Pub) (hy : y.numbers ≠ []) :
    ∃ v w, Version.parse x.text = .ok v ∧ Version.parse y.text = .ok w ∧ (v <ₚ w ↔ x.base.Below y) ∧ (w <ₚ v ↔ ¬ x.base.Below y) ∧ ¬ v ==ₚ w := by
  have hl : (FromPublic.ver y).local_ = none := rfl
  have h1 : x.ver <ₚ FromPublic.ver y ↔ x.base.Below y := by
    rw [← FromPublic.ver_lt hx.1 hy, vlt_iff, vlt_iff, ← public_lt_iff hl, build_public]
  have h2 : ¬ x.ver ==ₚ FromPublic.ver y := by
    rw [eq_public hl (by simp [Build.ver])]; simp
  refine ⟨_, _, build_parse hx, FromPublic.pub_parse hy, h1, ?_, h2⟩
  rw [← h1, vlt_iff, vlt_iff, not_lt, le_iff_lt_or_eq]
  rw [veq_iff] at h2
  constructor
  · exact .inl
  · rintro (h | h)
    · exact h
    · exact absurd h.symm h2

namespace LocalBuilds

theorem ask_build (q : Ask) (h : q.WellFormed) (x : Build) (hx : x.WellFormed) :
    ∃ b, (FromPublic.operator q).accepts x.ver = .ok b ∧ (b = true ↔ q.HoldsOfBase x.base) := by
  have hv : x.ver.local_ ≠ none := by simp [Build.ver]
  have hl : (FromPublic.operator q).version.local_ = none := by
    unfold FromPublic.operator; split <;> rfl
  have e := C128_operator (FromPublic.operator q).type (FromPublic.operator q).version x.ver hl hv
  rw [build_public] at e
  obtain ⟨s, a⟩ := q
  have h1 := h.1
  cases s with
  | doubleEqual | equal => exact ⟨false, e, by simp [Ask.HoldsOfBase]⟩
  | notEqual => exact ⟨true, e, by simp [Ask.HoldsOfBase]⟩
  | lessOrEqual => exact ⟨_, e, FromPublic.ver_lt hx.1 h1⟩
  | greater => exact ⟨_, e, FromPublic.ver_ge hx.1 h1⟩
  | caret | tilde | tildeEqual | less | greaterOrEqual | under | underSingle | notUnder =>
    obtain ⟨b, b1, b2⟩ := FromPublic.ask_accepts _ h x.base hx.1
    exact ⟨b, e.trans b1, b2⟩

theorem all_builds (l : List Ask) (hl : l ≠ []) (h : ∀ q ∈ l, q.WellFormed) :
    '|' ∉ askAll l ∧ ∃ s, Specifier.parse (askAll l) = .ok s ∧
      ∀ x : Build, x.WellFormed → (s.accepts x.ver = .ok true ↔ ∀ q ∈ l, q.HoldsOfBase x.base) := by
  induction l with
  | nil => exact absurd rfl hl
  | cons n l ih =>
    have hn := h n (by simp)
    have one : ∀ x : Build, x.WellFormed → ((Specifier.one (FromPublic.operator n)).accepts x.ver = .ok true ↔ n.HoldsOfBase x.base) := by
      intro x hx
      obtain ⟨b, h1, h2⟩ := ask_build n hn x hx
      rw [Specifier.accepts, h1, ← h2]
      simp
    refine ⟨(FromPublic.all_parse (n :: l) hl h).1.1, ?_⟩
    cases l with
    | nil => exact ⟨_, by simpa [askAll, List.intercalate] using FromPublic.ask_parse n hn, by simpa using one⟩
    | cons m l =>
      obtain ⟨hp, s, h1, h2⟩ := ih (by simp) (fun n hn => h n (List.mem_cons_of_mem _ hn))
      have e : askAll (n :: m :: l) = n.text ++ ",".toList ++ askAll (m :: l) := by
        simp [askAll, List.intercalate_cons_cons]
      obtain ⟨z, z1, z2⟩ := C75_and _ _ (FromPublic.pipe_ask n) hp _ _ (FromPublic.ask_parse n hn) h1
      refine ⟨z, e ▸ z1, fun x hx => ?_⟩
      rw [z2, one x hx, h2 x hx]; simp

theorem any_builds (f : List (List Ask)) (hf : f ≠ []) (h : ∀ l ∈ f, l ≠ [] ∧ ∀ q ∈ l, q.WellFormed) :
    ∃ s, Specifier.parse (askAny f) = .ok s ∧
      ∀ x : Build, x.WellFormed → (s.accepts x.ver = .ok true ↔ ∃ l ∈ f, ∀ q ∈ l, q.HoldsOfBase x.base) := by
  induction f with
  | nil => exact absurd rfl hf
  | cons l f ih =>
    obtain ⟨-, s, h1, h2⟩ := all_builds l (h l (by simp)).1 (h l (by simp)).2
    cases f with
    | nil => exact ⟨s, by simpa [askAny, List.intercalate] using h1, by simpa using h2⟩
    | cons m f =>
      obtain ⟨t, t1, t2⟩ := ih (by simp) (fun n hn => h n (List.mem_cons_of_mem _ hn))
      obtain ⟨z, -, z1, z2⟩ := C75_or _ _ _ _ h1 t1
      refine ⟨z, ?_, fun x hx => ?_⟩
      · have e : askAny (l :: m :: f) = askAll l ++ "||".toList ++ askAny (m :: f) := by
          simp [askAny, List.intercalate_cons_cons]
        exact e ▸ z1
      · rw [z2, h2 x hx, t2 x hx]; simp

end LocalBuilds

/-- C128. Requirements on public versions, with commas and bars between them and with whitespace anywhere, are read as a specifier
that accepts a local build exactly if its public version is as all requirements of one of the groups want it. -/
theorem C128_formula (f : List (List Ask)) (hf : f ≠ []) (h : ∀ l ∈ f, l ≠ [] ∧ ∀ q ∈ l, q.WellFormed) (t : PyStr)
    (ht : t.filter (fun c => !isSpace c) = askAny f) (x : Build) (hx : x.WellFormed) :
    ∃ s v b, Specifier.parse t = .ok s ∧ Version.parse x.text = .ok v ∧ s.accepts v = .ok b ∧
      (b = true ↔ ∃ l ∈ f, ∀ q ∈ l, q.HoldsOfBase x.base) := by
  obtain ⟨s, h1, h2⟩ := any_builds f hf h
  obtain ⟨b, hb⟩ := C32_accepts_total s (C52_valid _ _ h1) x.ver
  refine ⟨s, _, b, (FromText.spaced ht).trans h1, build_parse hx, hb, ?_⟩
  rw [← h2 x hx, hb]; simp

/-- C128. When the same string is read as a version set, the set contains the local build under the same condition. -/
theorem C128_set (f : List (List Ask)) (hf : f ≠ []) (h : ∀ l ∈ f, l ≠ [] ∧ ∀ q ∈ l, q.WellFormed) (t : PyStr)
    (ht : t.filter (fun c => !isSpace c) = askAny f) (x : Build) (hx : x.WellFormed) (lim : Nat) (z : VSet)
    (hz : VSet.parse lim t = .ok z) :
    ∃ v, Version.parse x.text = .ok v ∧ (z.contains v = true ↔ ∃ l ∈ f, ∀ q ∈ l, q.HoldsOfBase x.base) := by
  obtain ⟨s, h1, h2⟩ := any_builds f hf h
  refine ⟨_, build_parse hx, ?_⟩
  obtain ⟨-, y, t1, t2⟩ := C53_set lim _ z hz
  rw [FromText.spaced ht, h1] at t1
  cases t1
  obtain ⟨b, b1, b2⟩ := t2 x.ver
  rw [vset_contains_iff_mem, ← b2, ← h2 x hx, b1]; simp

/-- `1.2.post1+ubuntu.3` and the smaller `1.2.post1+ubuntu.x` are builds of `1.2.post1`. -/
def exBuild : Build := ⟨{ numbers := [1, 2], post := some 1 }, [.word "ubuntu".toList, .num 3]⟩
def exBuild' : Build := ⟨{ numbers := [1, 2], post := some 1 }, [.word "ubuntu".toList, .word "x".toList]⟩

example : exBuild.text = "1.2.post1+ubuntu.3".toList ∧ exBuild'.text = "1.2.post1+ubuntu.x".toList := by decide +kernel
example : exBuild.WellFormed ∧ exBuild'.WellFormed := by
  simp [Build.WellFormed, exBuild, exBuild', LabelPart.WellFormed]
example : exBuild'.base.Same exBuild.base ∧ List.Lex LabelPart.Below exBuild'.label exBuild.label :=
  ⟨⟨rfl, fun _ => rfl, rfl, rfl, rfl⟩, .cons (.rel trivial)⟩
example : (Version.parse exBuild'.text).toOption.bind (fun v => (Version.parse exBuild.text).toOption.map fun w => PyCmp.lt v w) = some true := by
  decide +kernel

/-- `>1.2.post1, !=1.2.post1` accepts a build of `1.2.post1`. -/
example : (⟨.greater, exBuild.base⟩ : Ask).HoldsOfBase exBuild.base ∧ (⟨.notEqual, exBuild.base⟩ : Ask).HoldsOfBase exBuild.base ∧
    ¬ (⟨.greater, exBuild.base⟩ : Ask).Holds exBuild.base := by
  have : ¬ exBuild.base.Below exBuild.base := by
    rw [← FromPublic.ver_lt (by simp [exBuild]) (by simp [exBuild])]; decide +kernel
  exact ⟨this, trivial, this⟩
example : (Specifier.parse ">1.2.post1, !=1.2.post1".toList).toOption.bind (fun s =>
    (Version.parse exBuild.text).toOption.bind fun v => (s.accepts v).toOption) = some true := by decide +kernel
example : askAny [[⟨.greater, exBuild.base⟩, ⟨.notEqual, exBuild.base⟩]] = ">1.2.post1,!=1.2.post1".toList := by decide +kernel

end Verif
