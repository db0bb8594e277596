import Verif.Proofs.LimitPrinting
import Verif.Proofs.Sessions
import Verif.Props.Versions
/-!
# The limit on conversions between integers and strings (C100)
-/

namespace Verif
open scoped Verif

/-! ## C100: parsing -/

/-- C100. Under a limit a version is read iff it is read without one and no numeral in the string is too long. The version is the
same. What was not read fails as before, and what is read only without the limit fails with `ValueError`. -/
theorem C100_version (limit : Nat) (s : PyStr) :
    (∀ v, Version.parseMax limit s = .ok v ↔ Version.parse s = .ok v ∧ FitsText limit s) ∧
    ∀ e, Version.parseMax limit s = .error e ↔ Version.parse s = .error e ∨ ((∃ v, Version.parse s = .ok v) ∧ ¬ FitsText limit s ∧ e = .valueError) := by
  rw [parseMax_eq]
  cases Version.parse s with
  | error e => simp
  | ok v =>
    by_cases h : FitsText limit s
    · simp [h]
    · simp [h, eq_comm]

/-- Underscores are separators here, and letters separate numbers from each other. -/
example : Version.parseMax 3 "1!200.30a400-500.dev600+7000x.080".toList = Version.parse "1!200.30a400-500.dev600+7000x.080".toList ∧
    Version.parseMax 3 "1.0200".toList = .error .valueError ∧ Version.parseMax 3 "1+2.7000".toList = .error .valueError ∧
    Version.parseMax 3 "1.2000-".toList = .error .parseVersionError ∧ Version.parseMax 3 "1a1000".toList = .error .valueError := by
  decide +kernel

/-- C100. Without a limit nothing changes. -/
theorem C100_no_limit (s : PyStr) (lim : Nat) :
    Version.parseMax 0 s = Version.parse s ∧ Specifier.parseMax 0 s = Specifier.parse s ∧ VSet.parseMax 0 lim s = VSet.parse lim s := by
  have h1 : Version.parseMax 0 s = Version.parse s := (limited_version 0 s).same (.inl rfl)
  have h2 : Specifier.parseMax 0 s = Specifier.parse s := (Specifier.limited_parse 0 s).same (fun _ _ => .inl rfl)
  refine ⟨h1, h2, ?_⟩
  show (Specifier.parseMax 0 s >>= _) = _
  rw [h2]
  rfl

example : Version.parseMax 0 "123456789".toList = .ok (exVersion [123456789]) ∧ Version.parseMax 8 "123456789".toList = .error .valueError := by
  decide +kernel

/-- C100. Under a limit a specifier is read as before if the numerals in all its clauses are short enough. Otherwise it is
not read: the exception is `ValueError` if the specifier was read before (so not `ParseSpecificationError`), and `ValueError` or
the one before if it was not. -/
theorem C100_specifier (limit : Nat) (s : PyStr) :
    ((∀ w ∈ specClauses s, FitsText limit w) → Specifier.parseMax limit s = Specifier.parse s) ∧
    ((¬ ∀ w ∈ specClauses s, FitsText limit w) → (∃ x, Specifier.parse s = .ok x) → Specifier.parseMax limit s = .error .valueError) ∧
    ∀ e, Specifier.parse s = .error e → Specifier.parseMax limit s = .error e ∨ Specifier.parseMax limit s = .error .valueError :=
  let h := Specifier.limited_parse limit s
  ⟨h.same, h.fails, h.errors⟩

/-- The last case occurs with a clause that is not read after one that is too long. -/
example : specClauses " >= 1.2, < 20 || 3.x".toList = [">=1.2".toList, "<20".toList, [], "3.x".toList] ∧
    Specifier.parseMax 1 ">= 1, != 2 | 3.x".toList = Specifier.parse ">= 1, != 2 | 3.x".toList ∧
    Specifier.parseMax 1 ">= 1, < 20".toList = .error .valueError ∧
    Specifier.parseMax 1 ">= 10, ?".toList = .error .valueError ∧ Specifier.parse ">= 10, ?".toList = .error .parseSpecificationError ∧
    Specifier.parseMax 1 "?, >= 10".toList = .error .parseSpecificationError := by
  refine ⟨by decide +kernel, by rfl, by rfl, by rfl, by rfl, by rfl⟩

/-- C100. The same for version sets. -/
theorem C100_set (limit lim : Nat) (s : PyStr) :
    ((∀ w ∈ specClauses s, FitsText limit w) → VSet.parseMax limit lim s = VSet.parse lim s) ∧
    ((¬ ∀ w ∈ specClauses s, FitsText limit w) → (∃ x, VSet.parse lim s = .ok x) → VSet.parseMax limit lim s = .error .valueError) ∧
    ∀ e, VSet.parse lim s = .error e → VSet.parseMax limit lim s = .error e ∨ VSet.parseMax limit lim s = .error .valueError :=
  let h := (Specifier.limited_parse limit s).bind (fun x => x.toSet lim)
  ⟨h.same, h.fails, h.errors⟩

example : VSet.parseMax 2 5 "< 1 || 3.x".toList = .ok (.union [exRange none (some [1]) false, exRange (some [3, 0]) (some [4, 0])]) ∧
    VSet.parseMax 2 5 "< 1 || 300.x".toList = .error .valueError := by decide +kernel

/-! ## C100: printing -/

/-- C100. Under a limit the strings of a version are the same as before if its numbers have few enough digits, and otherwise there is
`ValueError`. -/
theorem C100_version_strings (limit : Nat) (v : Version) :
    v.toStrMax limit = (if v.Fits limit then .ok v.toStr else .error .valueError) ∧
    v.toShortStrMax limit = (if v.Fits limit then .ok v.toShortStr else .error .valueError) := by
  by_cases h : v.Fits limit
  · rw [if_pos h, if_pos h]
    exact ⟨(v.gate_str limit).same h, (v.gate_short limit).same h⟩
  · rw [if_neg h, if_neg h]
    exact ⟨(v.gate_str limit).fails h, (v.gate_short limit).fails h⟩

example : (exVersion [12, 3] (some ⟨"rc".toList, 99⟩)).toShortStrMax 2 = .ok "12.3rc99".toList ∧
    (exVersion [12, 3] (some ⟨"rc".toList, 100⟩)).toShortStrMax 2 = .error .valueError ∧ (exVersion [-99]).toStrMax 2 = .ok "-99".toList := by
  decide +kernel

/-- C100. The same for the strings of operators and specifiers: all versions in them must fit. -/
theorem C100_specifier_strings (limit : Nat) (s : Specifier) :
    ((∀ o, s.Uses o → o.version.Fits limit) → s.toStrMax limit = .ok s.toStr ∧ s.toShortStrMax limit = .ok s.toShortStr) ∧
    ((∃ o, s.Uses o ∧ ¬ o.version.Fits limit) → s.toStrMax limit = .error .valueError ∧ s.toShortStrMax limit = .error .valueError) :=
  ⟨fun h => ⟨(s.gate_str limit).same h, (s.gate_short limit).same h⟩, fun ⟨o, h1, h2⟩ =>
    have h : ¬ s.Fits limit := fun h => h2 (h o h1)
    ⟨(s.gate_str limit).fails h, (s.gate_short limit).fails h⟩⟩

example : (Specifier.any [.one ⟨.caret, exVersion [9]⟩, .one ⟨.wildcardEqual, exVersion [3, 0]⟩]).toStrMax 1 = .ok "(^9 || = 3.*)".toList ∧
    (Specifier.any [.one ⟨.caret, exVersion [10]⟩, .one ⟨.wildcardEqual, exVersion [3, 0]⟩]).toStrMax 1 = .error .valueError := by decide +kernel

/-- C100. The same for the strings of version sets: all ends of the ranges must fit. -/
theorem C100_set_strings (limit lim : Nat) (x : VSet) (hx : x.Normal)
    (hv : ∀ i, x.Has i → ∀ v, (i.min = some v ∨ i.max = some v) → v.Valid) :
    ((∀ i, x.Has i → ∀ v, (i.min = some v ∨ i.max = some v) → v.Fits limit) →
      x.toStrMax limit lim = x.toStr lim ∧ x.toShortStrMax limit lim = x.toShortStr lim) ∧
    ((∃ i, x.Has i ∧ ∃ v, (i.min = some v ∨ i.max = some v) ∧ ¬ v.Fits limit) →
      x.toStrMax limit lim = .error .valueError ∧ x.toShortStrMax limit lim = .error .valueError) := by
  have ends : ∀ P : Version → Prop, AllEnds P x.extract ↔ ∀ i, x.Has i → ∀ v, (i.min = some v ∨ i.max = some v) → P v := by
    intro P
    simp only [AllEnds, Item.Ends, has_iff, or_imp, forall_and]
  have h1 := gate_set limit lim hx ((ends _).2 hv)
  have h2 := gate_short_set limit lim hx ((ends _).2 hv)
  rw [ends] at h1 h2
  refine ⟨fun h => ⟨h1.same h, h2.same h⟩, fun ⟨i, hi, v, h3, h4⟩ => ?_⟩
  have h : ¬ ∀ i, x.Has i → ∀ v, (i.min = some v ∨ i.max = some v) → v.Fits limit := fun h => h4 (h i hi v h3)
  exact ⟨h1.fails h, h2.fails h⟩

example : (VSet.union [exRange none (some [10]) false, exRange (some [10, 0]) none false]).toStrMax 2 5 = .ok "!= 10".toList ∧
    (VSet.union [exRange none (some [10]) false, exRange (some [10, 0]) none false]).toStrMax 1 5 = .error .valueError ∧
    (VSet.union [exRange none (some [1]) false, exRange (some [3, 0]) (some [40])]).toShortStrMax 1 5 = .error .valueError := by decide +kernel

/-! ## C100: both -/

/-- C100. What is read under a limit is also printed under it, and read back. -/
theorem C100_round_trip (limit : Nat) (s : PyStr) (v : Version) (h : Version.parseMax limit s = .ok v) :
    v.toStrMax limit = .ok v.toStr ∧ v.toShortStrMax limit = .ok v.toShortStr ∧ Version.parseMax limit v.toShortStr = .ok v := by
  obtain ⟨h1, h2⟩ := ((C100_version limit s).1 v).1 h
  have hf := parsed_fits limit h1 h2
  have hc := parse_canonical h1
  exact ⟨(v.gate_str limit).same hf, (v.gate_short limit).same hf,
    ((C100_version limit _).1 v).2 ⟨parse_short hc, (fits_short limit hc).2 hf⟩⟩

example : Version.parseMax 2 "v01.ALPHA".toList = .error .valueError ∧ Version.parseMax 2 "v01-alpha".toList = .ok (exVersion [1] (some ⟨"alpha".toList, 0⟩)) ∧
    (exVersion [1] (some ⟨"alpha".toList, 0⟩)).toShortStrMax 2 = .ok "1a0".toList := by decide +kernel

/-- C100. For versions that strings can denote, three things are the same: the numbers fit, the string can be made, and the
string can be read. -/
theorem C100_canonical (limit : Nat) (v : Version) (hv : v.Canonical) :
    (v.Fits limit ↔ ∃ t, v.toShortStrMax limit = .ok t) ∧ (v.Fits limit ↔ Version.parseMax limit v.toShortStr = .ok v) := by
  constructor
  · rw [(C100_version_strings limit v).2]
    by_cases h : v.Fits limit <;> simp [h]
  · rw [(C100_version limit _).1, fits_short limit hv]
    exact ⟨fun h => ⟨parse_short hv, h⟩, fun h => h.2⟩

example : (exVersion [12, 3]).Fits 2 ∧ (exVersion [12, 3]).Canonical ∧ ¬ (exVersion [12, 3]).Fits 1 ∧
    Version.parseMax 1 (exVersion [12, 3]).toShortStr = .error .valueError := by decide +kernel

/-- C100. Specifiers that are read under a limit are printed under it. -/
theorem C100_specifier_prints (limit : Nat) (s : PyStr) (x : Specifier) (h : Specifier.parseMax limit s = .ok x) :
    x.toStrMax limit = .ok x.toStr ∧ x.toShortStrMax limit = .ok x.toShortStr := by
  refine (C100_specifier_strings limit x).1 fun o ho => ?_
  obtain ⟨gs, ⟨a, l, -, hg⟩, rfl⟩ := (Specifier.parse_ok_by _ s x).1 h
  obtain ⟨g, h1, h2⟩ := uses_ofAny ho
  obtain ⟨_, -, _, _, -, hs⟩ := forall₂_right hg h1
  obtain ⟨w, -, hw⟩ := forall₂_right hs h2
  have key : ∀ {t : OpType} {u : PyStr} {v : Version}, Version.parseMax limit u = .ok v → Operator.create t v = .ok o → o.version.Fits limit := by
    intro t u v hu hc
    obtain ⟨h3, h4⟩ := ((C100_version limit u).1 v).1 hu
    unfold Operator.create at hc
    split at hc
    · cases hc
    · cases hc
      exact parsed_fits limit h3 h4
  cases hw with
  | compare _ _ _ h1 h2 => exact key h1 h2
  | equal _ _ h1 h2 => exact key h1 h2
  | wildcard _ _ _ _ h1 h2 => exact key h1 h2
  | upper _ _ _ h1 h2 => exact key h1 h2

example : ∃ x, Specifier.parseMax 2 "^99 | 1.x".toList = .ok x ∧ x.toStrMax 2 = .ok "(^99 || = 1.*)".toList :=
  ⟨.any [.one ⟨.caret, exVersion [99]⟩, .one ⟨.wildcardEqual, exVersion [1, 0]⟩], by rfl, by decide +kernel⟩

/-! ## C100: bumps -/

/-- C100. A bump of a stable version that fits makes one that fits, unless the part that is bumped has only nines. -/
theorem C100_bump (limit : Nat) (v w : Version) (i : Nat) (hv : v.Canonical) (hf : v.Fits limit) (h : v.nextAt i = .ok w) :
    (v.isStable = false → w.Fits limit) ∧
    (v.isStable = true → (w.Fits limit ↔ limit = 0 ∨ v.release.part i ≠ 10 ^ limit - 1)) := by
  obtain ⟨w', h1, ⟨g1, g2, g3, g4⟩, h3, -, h5, h6⟩ := nextAt_spec v hv.valid i
  obtain rfl : w' = w := Except.ok.inj (h1.symm.trans h)
  obtain ⟨f1, f2, -⟩ := (Version.fits_iff limit v).1 hf
  have hw : w'.Fits limit ↔ ∀ n ∈ w'.release.parts, FitsInt limit n := by
    rw [Version.fits_iff, g1, g2, g3, g4, h3]
    simp [f1]
  refine ⟨fun hs => hw.2 (h6 hs ▸ f2), fun hs => ?_⟩
  rw [Version.release_fits] at f2
  rw [hw, Version.release_fits]
  have h5 := (h5 hs).2
  have hi : 0 ≤ v.release.part i := by
    unfold Release.part
    rw [List.getD_eq_getElem?_getD]
    cases e : v.release.parts[i]? with
    | none => exact le_refl _
    | some n => exact hv.release n (List.mem_of_getElem? e)
  have hcast : ((10 ^ limit : Nat) : Int) = 10 ^ limit := by push_cast; rfl
  constructor
  · intro h
    have := h i
    rw [h5, if_neg (by omega), if_pos rfl] at this
    rcases this with h | h
    · exact .inl h
    · right
      omega
  · intro h j
    rw [h5]
    split
    · exact f2 j
    · split
      · rcases h with h | h
        · exact .inl h
        · rcases f2 i with h' | h'
          · exact .inl h'
          · right
            omega
      · exact fitsInt_zero limit

example : (exVersion [9, 8]).Fits 1 ∧ (exVersion [9, 8]).nextAt 1 = .ok (exVersion [9, 9]) ∧ (exVersion [9, 9]).Fits 1 ∧
    (exVersion [9, 8]).nextAt 0 = .ok (exVersion [10, 0]) ∧ ¬ (exVersion [10, 0]).Fits 1 := by decide +kernel

theorem nines (k : Nat) : number (List.replicate k '9') = 10 ^ k - 1 := by
  induction k with
  | zero => rfl
  | succ k ih =>
    rw [List.replicate_succ', number_snoc, ih]
    have : 0 < 10 ^ k := Nat.pos_of_ne_zero (by simp)
    have e : ('9'.toNat - 48 : Nat) = 9 := by decide
    rw [e, Nat.pow_succ]
    omega

/-- C100. For every limit there is a version that is read and printed under the limit, but the next major version and the
set of versions compatible with it are not printed: `ValueError`. -/
theorem C100_nines (limit lim : Nat) (hl : limit ≠ 0) : ∃ v w x,
    Version.parseMax limit (List.replicate limit '9') = .ok v ∧ v.toStrMax limit = .ok (List.replicate limit '9') ∧
    v.nextMajor = .ok w ∧ w.toStrMax limit = .error .valueError ∧ w.toShortStrMax limit = .error .valueError ∧
    VSet.parseMax limit lim ('^' :: List.replicate limit '9') = .ok x ∧
    x.toStrMax limit lim = .error .valueError ∧ x.toShortStrMax limit lim = .error .valueError := by
  have hpos : 10 ^ 1 ≤ 10 ^ limit := Nat.pow_le_pow_right (by omega) (by omega)
  obtain ⟨k, rfl⟩ := Nat.exists_eq_succ_of_ne_zero hl
  generalize hs : List.replicate (k + 1) '9' = s
  have hnum : Pep440.Numeral s := by
    subst hs
    refine .inr ⟨'9', List.replicate k '9', rfl, by decide, by decide, fun x hx => ?_⟩
    obtain rfl := List.eq_of_mem_replicate hx
    decide
  have hn : number s = 10 ^ (k + 1) - 1 := hs ▸ nines (k + 1)
  generalize hm : number s = m at hn
  let v : Version := { release := ⟨[(m : Int)]⟩ }
  let w : Version := { release := ⟨[(m : Int) + 1]⟩ }
  have hv : v.Canonical := ⟨⟨by simp [v], by simp [v], by simp [v], by simp [v], by simp [v]⟩, by simp [v], by simp [v, Release.NonNeg], by simp [v], by simp [v], by simp [v], by simp [v]⟩
  have ht : v.toShortStr = s := by
    have : v.toShortStr = intStr (m : Int) := by simp [v, Version.toShortStr, Version.epochPart, Epoch.truthy, Release.toStr, Version.part, join]
    rw [this, ← hm]
    exact intStr_number hnum
  have hf : v.Fits (k + 1) := .inr (by simp [v, Version.numbers]; omega)
  have hw : ¬ w.Fits (k + 1) := by
    rintro (h | h)
    · omega
    · have := h ((m : Int) + 1) (by simp [w, Version.numbers])
      omega
  have hnext : v.nextMajor = .ok w := by rfl
  have hm0 : (m : Int) ≠ 0 := by omega
  have hbreak : v.nextCaretBreaking = .ok w := by
    have : v.major = .ok (m : Int) := by rfl
    simp only [Version.nextCaretBreaking, Version.nextBreaking, this, bind, Except.bind, if_neg hm0]
    exact hnext
  have hlt : v <ₚ w := by
    obtain ⟨u, h1, -, -, h2, -⟩ := C10_next_at v hv.valid hv.release 0
    obtain rfl : u = w := Except.ok.inj (h1.symm.trans hnext)
    exact h2 (by simp [Version.IsDevOfPost, v])
  have hset : ∀ lim, Operator.toSet lim ⟨.caret, v⟩ = .ok (.item (.range ⟨some v, some w, true, false⟩)) := by
    intro lim
    show v.translateCaret = _
    unfold Version.translateCaret
    rw [hbreak]
    simp only [bind, Except.bind]
    rw [mkRange_window, if_neg (lt_asymm ((vlt_iff v w).1 hlt))]
  have hparse : Version.parseMax (k + 1) s = .ok v := ht ▸ ((C100_canonical (k + 1) v hv).2.1 hf)
  have hspace : ('^' :: s).filter (fun c => !isSpace c) = '^' :: s := by
    rw [List.filter_eq_self]
    intro c hc
    rcases List.mem_cons.1 hc with rfl | hc
    · decide
    · rw [← hs] at hc
      obtain rfl := List.eq_of_mem_replicate hc
      decide
  have hread : Specifier.parseMax (k + 1) ('^' :: s) = .ok (.one ⟨.caret, v⟩) := by
    refine (Specifier.parse_ok_by _ _ _).2 ⟨[[⟨.caret, v⟩]], ?_, rfl⟩
    rw [hspace]
    have hone : SingleBy (Version.parseMax (k + 1)) ("^".toList ++ (shortSpelling v).text) ⟨.caret, v⟩ := by
      refine .compare (t := .caret) (v := v) (by decide) (good_shortSpelling hv).1 rfl ?_ (by rfl)
      rw [← text_short hv.valid, ht, hparse]
    rw [← text_short hv.valid, ht] at hone
    exact ⟨'^' :: s, [], by simp [pipes], .cons ⟨'^' :: s, [], by simp, .cons hone .nil⟩ .nil⟩
  have hwv : w.Valid := ⟨by simp [w], by simp [w], by simp [w], by simp [w], by simp [w]⟩
  have hx := window_normal ((vlt_iff v w).1 hlt)
  have hstr := (C100_set_strings (k + 1) lim (window v w) hx (by
    intro i hi u hu
    have : i = .range ⟨some v, some w, true, false⟩ := by simpa [window, VSet.Has] using hi
    subst this
    rcases hu with hu | hu <;> cases hu
    · exact hv.valid
    · exact hwv)).2 ⟨.range ⟨some v, some w, true, false⟩, by simp [window, VSet.Has], w, .inr rfl, hw⟩
  refine ⟨v, w, window v w, hparse, ?_, hnext, (w.gate_str _).fails hw, (w.gate_short _).fails hw, ?_, hstr⟩
  · rw [(v.gate_str _).same hf, ← ht]
    rfl
  · show (Specifier.parseMax (k + 1) ('^' :: s) >>= fun x => x.toSet lim) = _
    rw [hread]
    show Specifier.toSet lim (.one ⟨.caret, v⟩) = _
    rw [Specifier.toSet, hset]
    rfl

example : Version.parseMax 2 "99".toList = .ok (exVersion [99]) ∧ (exVersion [99]).nextMajor = .ok (exVersion [100]) ∧
    (exVersion [100]).toStrMax 2 = .error .valueError ∧ VSet.parseMax 2 5 "^99".toList = .ok (.item (exRange (some [99]) (some [100]))) ∧
    (VSet.item (exRange (some [99]) (some [100]))).toStrMax 2 5 = .error .valueError := by decide +kernel

end Verif
