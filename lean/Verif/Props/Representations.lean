import Verif.Proofs.SpecInjective
import Verif.Props.SetReading
/-!
# C103: strings of specifiers and representations of version sets determine them
-/

namespace Verif
open scoped Verif

/-! ### specifiers -/

/-- C103. Two specifiers that the constructors accept, nested in any way, have the same string iff they are the same up to
the numbers that wildcards hide. -/
theorem C103_string (s t : Specifier) (hs : s.Valid) (ht : t.Valid)
    (cs : ∀ o, s.Uses o → o.version.Canonical ∧ (o.type.isWildcard = true → o.version.local_ = none))
    (ct : ∀ o, t.Uses o → o.version.Canonical ∧ (o.type.isWildcard = true → o.version.local_ = none)) :
    s.toStr = t.toStr ↔ s.hideLast = t.hideLast := by
  rw [SpecPrinter.text_long, SpecPrinter.text_long]
  exact SpecPrinter.text_iff SpecPrinter.good_long hs ht cs ct

example : (Specifier.any [.one ⟨.equal, exVersion [1]⟩, .all [.one ⟨.caret, exVersion [1, 2]⟩, .any [.never, .one ⟨.wildcardNotEqual, exVersion [1, 3]⟩]]]).toStr =
    "(= 1 || (^1.2, (0 || != 1.*)))".toList ∧
    (Specifier.any [.one ⟨.equal, exVersion [1]⟩, .one ⟨.caret, exVersion [1, 2]⟩, .any [.never, .one ⟨.wildcardNotEqual, exVersion [1, 0]⟩]]).toStr =
    "(= 1 || ^1.2 || (0 || != 1.*))".toList := by decide +kernel

example : (Specifier.one ⟨.wildcardNotEqual, exVersion [1, 3]⟩).toStr = (Specifier.one ⟨.wildcardNotEqual, exVersion [1, 5]⟩).toStr ∧
    (Specifier.one ⟨.wildcardNotEqual, exVersion [1, 3]⟩).hideLast = .one ⟨.wildcardNotEqual, exVersion [1, 0]⟩ := ⟨by decide +kernel, by rfl⟩

/-- C103. So do short strings. -/
theorem C103_short (s t : Specifier) (hs : s.Valid) (ht : t.Valid)
    (cs : ∀ o, s.Uses o → o.version.Canonical ∧ (o.type.isWildcard = true → o.version.local_ = none))
    (ct : ∀ o, t.Uses o → o.version.Canonical ∧ (o.type.isWildcard = true → o.version.local_ = none)) :
    s.toShortStr = t.toShortStr ↔ s.hideLast = t.hideLast := by
  rw [SpecPrinter.text_short, SpecPrinter.text_short]
  exact SpecPrinter.text_iff SpecPrinter.good_short hs ht cs ct

example : (Specifier.all [.one ⟨.greater, exVersion [1]⟩, .any [.always, .one ⟨.tilde, exVersion [1, 2] (some ⟨"candidate".toList, 1⟩)⟩]]).toShortStr =
    "(>1,(*||~1.2c1))".toList := by decide +kernel

mutual
theorem hideLast_self : ∀ s : Specifier, (∀ o, s.Uses o → o.type.isWildcard = false) → s.hideLast = s
  | .never, _ => rfl
  | .always, _ => rfl
  | .one o, h => by
    have := h o (.one o)
    simp [Specifier.hideLast, Operator.hideLast, this]
  | .any l, h => by rw [Specifier.hideLast, hideLasts_self l (fun s hs o ho => h o (.any hs ho))]
  | .all l, h => by rw [Specifier.hideLast, hideLasts_self l (fun s hs o ho => h o (.all hs ho))]
theorem hideLasts_self : ∀ l : List Specifier, (∀ s ∈ l, ∀ o, s.Uses o → o.type.isWildcard = false) → Specifier.hideLasts l = l
  | [], _ => rfl
  | s :: l, h => by
    rw [Specifier.hideLasts, hideLast_self s (h s (by simp)), hideLasts_self l (fun t ht => h t (List.mem_cons_of_mem _ ht))]
end

/-- C103. Without wildcards, strings, short strings and representations determine the specifier: its operators, the versions
with all their segments, the order, and the parentheses. -/
theorem C103_exact (s t : Specifier) (hs : s.Valid) (ht : t.Valid)
    (cs : ∀ o, s.Uses o → o.version.Canonical ∧ o.type.isWildcard = false)
    (ct : ∀ o, t.Uses o → o.version.Canonical ∧ o.type.isWildcard = false) :
    (s.toStr = t.toStr ↔ s = t) ∧ (s.toShortStr = t.toShortStr ↔ s = t) := by
  have w : ∀ {s : Specifier}, (∀ o, s.Uses o → o.version.Canonical ∧ o.type.isWildcard = false) →
      ∀ o, s.Uses o → o.version.Canonical ∧ (o.type.isWildcard = true → o.version.local_ = none) :=
    fun h o ho => ⟨(h o ho).1, fun g => absurd g (by simp [(h o ho).2])⟩
  rw [C103_string s t hs ht (w cs) (w ct), C103_short s t hs ht (w cs) (w ct), hideLast_self s (fun o ho => (cs o ho).2), hideLast_self t (fun o ho => (ct o ho).2)]
  exact ⟨Iff.rfl, Iff.rfl⟩

example : (Specifier.any [.one ⟨.equal, exVersion [1]⟩, .one ⟨.less, exVersion [1]⟩]).toStr ≠ (Specifier.any [.one ⟨.less, exVersion [1]⟩, .one ⟨.equal, exVersion [1]⟩]).toStr ∧
    (Specifier.one ⟨.equal, exVersion [1]⟩).toStr ≠ (Specifier.one ⟨.equal, exVersion [1, 0]⟩).toStr := by decide +kernel

/-- C103. Representations add nothing: they are equal iff the strings are. -/
theorem C103_repr (s t : Specifier) (hs : s.Valid) (ht : t.Valid)
    (cs : ∀ o, s.Uses o → o.version.Canonical ∧ (o.type.isWildcard = true → o.version.local_ = none))
    (ct : ∀ o, t.Uses o → o.version.Canonical ∧ (o.type.isWildcard = true → o.version.local_ = none)) :
    s.repr = t.repr ↔ s.hideLast = t.hideLast := by
  rw [← C103_string s t hs ht cs ct]
  refine ⟨fun h => ?_, fun h => ?_⟩
  · cases s <;> cases t <;> first | (simp [Specifier.repr, representation] at h; done) | exact (representation_inj _ _ _ _).1 h
  · have e := (C103_string s t hs ht cs ct).1 h
    cases s <;> cases t <;> first | (simp [Specifier.hideLast] at e; done) | exact (representation_inj _ _ _ _).2 h

example : (Specifier.all [.one ⟨.greater, exVersion [1]⟩, .one ⟨.less, exVersion [2]⟩]).repr = "<SpecifierAll (> 1, < 2)>".toList ∧
    (Specifier.one ⟨.greater, exVersion [1]⟩).repr = "<SpecifierOne (> 1)>".toList := by decide +kernel

/-! ### version sets -/

theorem longPrinter_inj_all : longPrinter.Inj Version.Canonical where
  comma := by decide
  pipe := by decide
  plain v hv := (long_plain hv).1
  head v hv := (long_marks hv).1
  op := longPrinter_inj.op
  inj v w hv hw h := (C83_string v w hv hw).1 h

/-- C103. Representations of version sets are the name of the class and the string in parentheses. -/
theorem C103_frame (lim : Nat) (x : VSet) (s : PyStr) (h : x.toStr lim = .ok s) :
    (x = .empty → x.repr lim = .ok ("<VersionEmpty (".toList ++ s ++ ")>".toList)) ∧
    (∀ r, x = .item (.range r) → x.repr lim = .ok ("<VersionRange (".toList ++ s ++ ")>".toList)) ∧
    (∀ v, x = .item (.point v) → x.repr lim = .ok ("<VersionPoint (".toList ++ s ++ ")>".toList)) ∧
    (∀ l, x = .union l → x.repr lim = .ok ("<VersionUnion (".toList ++ s ++ ")>".toList)) := by
  refine ⟨?_, ?_, ?_, ?_⟩
  · rintro rfl
    simp [VSet.repr, h, bind, Except.bind, VSet.className, representation, wrapAround]
  · rintro r rfl
    simp [VSet.repr, h, bind, Except.bind, VSet.className, representation, wrapAround]
  · rintro v rfl
    simp [VSet.repr, h, bind, Except.bind, VSet.className, representation, wrapAround]
  · rintro l rfl
    simp [VSet.repr, h, bind, Except.bind, VSet.className, representation, wrapAround]

example : (VSet.item (exRange (some [1, 0]) none true)).toStr 5 = .ok ">= 1.0".toList ∧
    (VSet.item (exRange (some [1, 0]) none true)).repr 5 = .ok "<VersionRange (>= 1.0)>".toList := by decide +kernel

theorem className_inj {x y : VSet} {s t : PyStr} (h : representation x.className true s = representation y.className true t) :
    x.className = y.className ∧ s = t := by
  have key : x.className = y.className := by
    cases x with
    | empty => cases y with
      | empty => rfl
      | item j => cases j <;> simp [VSet.className, representation] at h
      | union m => simp [VSet.className, representation] at h
    | item i => cases y with
      | empty => cases i <;> simp [VSet.className, representation] at h
      | item j => cases i <;> cases j <;> first | rfl | (simp [VSet.className, representation] at h)
      | union m => cases i <;> simp [VSet.className, representation] at h
    | union l => cases y with
      | empty => simp [VSet.className, representation] at h
      | item j => cases j <;> simp [VSet.className, representation] at h
      | union m => rfl
  rw [key] at h
  exact ⟨key, (representation_inj _ _ _ _).1 h⟩

/-- C103. Representations of sets in normal form with canonical ends, the empty set among them, determine the sets, except
that a set which leaves out one version shows it only once. -/
theorem C103_sets (x y : VSet) (hx : x.Normal) (hy : y.Normal)
    (cx : ∀ i, x.Has i → ∀ v, i.min = some v ∨ i.max = some v → v.Canonical)
    (cy : ∀ i, y.Has i → ∀ v, i.min = some v ∨ i.max = some v → v.Canonical) (m n : Nat) (h : x.repr m = y.repr n) :
    x.eq y = true ∧ (x = y ∨ ∃ v, x.Excludes v ∧ y.Excludes v) := by
  have key : ∀ {x : VSet}, (∀ i, x.Has i → ∀ v, i.min = some v ∨ i.max = some v → v.Canonical) → AllEnds Version.Canonical x.extract :=
    fun h i hi => ⟨fun v hv => h i ((has_iff _ _).2 hi) v (.inl hv), fun v hv => h i ((has_iff _ _).2 hi) v (.inr hv)⟩
  have same : x.eq x = true := by
    rw [eq_iff_cov hx hx]
    exact fun c => Iff.rfl
  have str : ∀ {x : VSet}, x.Normal → ∃ s, ∀ lim, x.toStr lim = .ok s := by
    intro x hx
    by_cases hne : x = .empty
    · subst hne
      exact ⟨_, fun _ => rfl⟩
    · obtain ⟨s, hs⟩ := set_text longPrinter hx hne
      exact ⟨s, set_long_text hx hs⟩
  obtain ⟨s, hs⟩ := str hx
  obtain ⟨t, ht⟩ := str hy
  simp only [VSet.repr, hs, ht, bind, Except.bind, Except.ok.injEq] at h
  obtain ⟨h1, rfl⟩ := className_inj h
  by_cases hne : x = .empty
  · subst hne
    have : y = .empty := by
      cases y with
      | empty => rfl
      | item j => cases j <;> simp [VSet.className] at h1
      | union m => simp [VSet.className] at h1
    subst this
    exact ⟨same, .inl rfl⟩
  · have hne' : y ≠ .empty := by
      rintro rfl
      cases x with
      | empty => exact hne rfl
      | item j => cases j <;> simp [VSet.className] at h1
      | union m => simp [VSet.className] at h1
    obtain ⟨s', hs'⟩ := set_text longPrinter hx hne
    obtain ⟨t', ht'⟩ := set_text longPrinter hy hne'
    have e1 := (set_long_text hx hs' 0).symm.trans (hs 0)
    have e2 := (set_long_text hy ht' 0).symm.trans (ht 0)
    cases e1
    cases e2
    rcases longPrinter_inj_all.text_inj hx hy (key cx) (key cy) hs' ht' with rfl | ⟨l, k, v, rfl, rfl, g1, g2⟩
    · exact ⟨same, .inl rfl⟩
    · refine ⟨same_excluded hx hy (g1 0) (g2 0), .inr ⟨v, ?_, ?_⟩⟩
      · rcases exclude_cases hx (key cx) with ⟨items, w, e, k1, k2, -⟩ | ⟨k1, -⟩
        · cases e
          rw [g1 0] at k1
          cases k1
          exact k2
        · exact nomatch (g1 0).symm.trans (k1 _ rfl)
      · rcases exclude_cases hy (key cy) with ⟨items, w, e, k1, k2, -⟩ | ⟨k1, -⟩
        · cases e
          rw [g2 0] at k1
          cases k1
          exact k2
        · exact nomatch (g2 0).symm.trans (k1 _ rfl)

example : VSet.empty.repr 5 = .ok "<VersionEmpty (0)>".toList ∧ (VSet.item (exPoint [0])).repr 5 = .ok "<VersionPoint (0)>".toList ∧
    (VSet.item (exRange (some [1]) (some [2]) true)).repr 5 = .ok "<VersionRange (>= 1, < 2)>".toList ∧
    (VSet.union [exPoint [1], exPoint [2]]).repr 5 = .ok "<VersionUnion (1 || 2)>".toList ∧
    (VSet.union [exRange none (some [1]) false, exRange (some [1, 0]) none false]).repr 5 = .ok "<VersionUnion (!= 1)>".toList ∧
    (VSet.union [exRange none (some [1]) false, exRange (some [1]) none false]).repr 5 = .ok "<VersionUnion (!= 1)>".toList := by decide +kernel

/-- C103. Representations of sets in normal form never fail and do not depend on the recursion limit. -/
theorem C103_total (x : VSet) (hx : x.Normal) : ∃ s, ∀ lim, x.repr lim = .ok s := by
  by_cases hne : x = .empty
  · subst hne
    exact ⟨_, fun _ => rfl⟩
  · obtain ⟨s, hs⟩ := set_text longPrinter hx hne
    refine ⟨representation x.className true s, fun lim => ?_⟩
    simp only [VSet.repr, set_long_text hx hs, bind, Except.bind]

example : (VSet.union [exPoint [1], exPoint [2]]).repr 0 = .ok "<VersionUnion (1 || 2)>".toList := by decide +kernel

end Verif
