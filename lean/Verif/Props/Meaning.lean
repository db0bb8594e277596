import Verif.Props.Threads
import Verif.Props.SetStrings
/-!
# What the statements of programs in threads compute (C98)
-/

namespace Verif
open Specifier Statement

/-- What a statement means, given the results `rs` of its program: its outcome is what its name says of the results that it refers
to, up to the versions that are accepted or contained. -/
def Statement.Gives (rs : List Result) : Statement → Outcome → Prop
  | .parseVersion s, .version v => Version.parse s = .ok v
  | .parseSpecifier s, .specifier t => ∃ t', Specifier.parse s = .ok t' ∧ t.eq t' = true ∧ ∀ v : Version, t.accepts v = t'.accepts v
  | .parseVersionSet s, .set x => ∃ t, Specifier.parse s = .ok t ∧ ∀ v : Version, t.accepts v = .ok (x.contains v)
  | .operator u i, .specifier t => ∃ w, rs[i]? = some (.ok (.version w)) ∧ t.eq (.one ⟨u, w⟩) = true ∧
      ∀ v : Version, t.accepts v = (⟨u, w⟩ : Operator).accepts v
  | .anyOf l, .specifier t => (∀ i ∈ l, ∃ s, rs[i]? = some (.ok (.specifier s))) ∧ ∀ v : Version, ∃ b, t.accepts v = .ok b ∧
      (b = true ↔ ∃ i ∈ l, ∃ s, rs[i]? = some (.ok (.specifier s)) ∧ s.accepts v = .ok true)
  | .allOf l, .specifier t => (∀ i ∈ l, ∃ s, rs[i]? = some (.ok (.specifier s))) ∧ ∀ v : Version, ∃ b, t.accepts v = .ok b ∧
      (b = true ↔ ∀ i ∈ l, ∃ s, rs[i]? = some (.ok (.specifier s)) ∧ s.accepts v = .ok true)
  | .toSet i, .set x => ∃ t, rs[i]? = some (.ok (.specifier t)) ∧ ∀ v : Version, t.accepts v = .ok (x.contains v)
  | .fromSet i, .specifier t => ∃ x, rs[i]? = some (.ok (.set x)) ∧ ∀ v : Version, t.accepts v = .ok (x.contains v)
  | .simplify i, .specifier t => ∃ s, rs[i]? = some (.ok (.specifier s)) ∧ ∀ v : Version, t.accepts v = s.accepts v
  | .intersection i j, .set z => ∃ x y, rs[i]? = some (.ok (.set x)) ∧ rs[j]? = some (.ok (.set y)) ∧
      ∀ v : Version, z.contains v = (x.contains v && y.contains v)
  | .union i j, .set z => ∃ x y, rs[i]? = some (.ok (.set x)) ∧ rs[j]? = some (.ok (.set y)) ∧
      ∀ v : Version, z.contains v = (x.contains v || y.contains v)
  | .difference i j, .set z => ∃ x y, rs[i]? = some (.ok (.set x)) ∧ rs[j]? = some (.ok (.set y)) ∧
      ((∀ items, ¬ (x = .union items ∧ y = .empty)) →
        (∀ r items, x = .item (.range r) → y = .union items → ∀ j ∈ items, ¬ ∀ v, (Item.range r).Mem v → j.Mem v) →
        ∀ v : Version, z.contains v = (x.contains v && !y.contains v))
  | .symmetricDifference i j, .set z => ∃ x y, rs[i]? = some (.ok (.set x)) ∧ rs[j]? = some (.ok (.set y)) ∧
      (∀ items, x ≠ .union items) ∧ (x = .empty → ∀ v : Version, z.contains v = y.contains v) ∧
      ((∃ w : Version, x.contains w = true ∧ y.contains w = true) →
        ∀ v : Version, z.contains v = (x.contains v ^^ y.contains v))
  | .complement i, .set z => ∃ x, rs[i]? = some (.ok (.set x)) ∧ ∀ v : Version, z.contains v = !x.contains v
  | .accepts i j, .bool b => ∃ s v, rs[i]? = some (.ok (.specifier s)) ∧ rs[j]? = some (.ok (.version v)) ∧ s.accepts v = .ok b
  | .contains i j, .bool b => ∃ x v, rs[i]? = some (.ok (.set x)) ∧ rs[j]? = some (.ok (.version v)) ∧ x.contains v = b
  | .sameSpecifier i j, .bool b => ∃ s t, rs[i]? = some (.ok (.specifier s)) ∧ rs[j]? = some (.ok (.specifier t)) ∧ s.eq t = b ∧
      (b = true → ∀ v : Version, s.accepts v = t.accepts v)
  | .sameSet i j, .bool b => ∃ x y, rs[i]? = some (.ok (.set x)) ∧ rs[j]? = some (.ok (.set y)) ∧
      (b = true ↔ ∀ v : Version, v.Wf → x.contains v = y.contains v)
  | _, _ => False

/-! ### the results of a program, one by one -/

theorem runFrom_prefix {σ : Type} (L : Library σ) (lim : Nat) (program : List Statement) : ∀ (env : List Result) (p : σ),
    ∃ l, runFrom L lim env p program = env ++ l := by
  induction program with
  | nil => exact fun env p => ⟨[], by simp [runFrom]⟩
  | cons st rest ih =>
    intro env p
    obtain ⟨l, hl⟩ := ih (env ++ [(st.run L lim env p).1]) (st.run L lim env p).2
    exact ⟨(st.run L lim env p).1 :: l, by simp only [runFrom]; rw [hl]; simp⟩

theorem runFrom_length {σ : Type} (L : Library σ) (lim : Nat) (program : List Statement) : ∀ (env : List Result) (p : σ),
    (runFrom L lim env p program).length = env.length + program.length := by
  induction program with
  | nil => exact fun env p => by simp [runFrom]
  | cons st rest ih => intro env p; simp only [runFrom, ih]; simp; omega

theorem runFrom_get (lim : Nat) (program : List Statement) : ∀ (env : List Result) (k : Nat) (st : Statement), program[k]? = some st →
    (runFrom (.plain lim) lim env () program)[env.length + k]? =
      some (st.run (.plain lim) lim ((runFrom (.plain lim) lim env () program).take (env.length + k)) ()).1 := by
  induction program with
  | nil => intro env k st h; simp at h
  | cons st rest ih =>
    intro env k st' h
    cases k with
    | zero =>
      simp only [List.getElem?_cons_zero, Option.some.injEq] at h
      subst h
      obtain ⟨l, hl⟩ := runFrom_prefix (.plain lim) lim rest (env ++ [(st.run (.plain lim) lim env ()).1]) ()
      simp only [runFrom, hl]
      simp
    | succ k =>
      simp only [List.getElem?_cons_succ] at h
      have := ih (env ++ [(st.run (.plain lim) lim env ()).1]) k st' h
      simp only [List.length_append, List.length_singleton] at this
      rw [show env.length + (k + 1) = env.length + 1 + k by omega]
      exact this

section
variable {l : List Result} {i : Nat}

theorem getSet_ok {x : VSet} (h : getSet l i = .ok x) : l[i]? = some (.ok (.set x)) := by
  unfold getSet at h
  split at h
  · next y hy => cases h; exact hy
  · cases h

theorem getSpecifier_ok {x : Specifier} (h : getSpecifier l i = .ok x) : l[i]? = some (.ok (.specifier x)) := by
  unfold getSpecifier at h
  split at h
  · next y hy => cases h; exact hy
  · cases h

theorem getVersion_ok {x : Version} (h : getVersion l i = .ok x) : l[i]? = some (.ok (.version x)) := by
  unfold getVersion at h
  split at h
  · next y hy => cases h; exact hy
  · cases h
end

section
variable {Q : Operator → Prop} {rs ref : List Result} (h : List.Forall₂ (Related Q) rs ref) {i : Nat}
include h

theorem set_back {y : VSet} (hi : ref[i]? = some (.ok (.set y))) : ∃ x, rs[i]? = some (.ok (.set x)) ∧ RelSet x y := by
  rcases forall₂_getElem? h i with ⟨h1, h2⟩ | ⟨a, b, h1, h2, hab⟩
  · rw [h2] at hi; cases hi
  · rw [h2] at hi
    cases hi
    rcases a with e | a
    · exact hab.elim
    · cases a <;> try exact hab.elim
      exact ⟨_, h1, hab⟩

theorem specifier_back {t : Specifier} (hi : ref[i]? = some (.ok (.specifier t))) :
    ∃ s, rs[i]? = some (.ok (.specifier s)) ∧ RelSpecifier Q s t := by
  rcases forall₂_getElem? h i with ⟨h1, h2⟩ | ⟨a, b, h1, h2, hab⟩
  · rw [h2] at hi; cases hi
  · rw [h2] at hi
    cases hi
    rcases a with e | a
    · exact hab.elim
    · cases a <;> try exact hab.elim
      exact ⟨_, h1, hab⟩

theorem version_back {v : Version} (hi : ref[i]? = some (.ok (.version v))) : rs[i]? = some (.ok (.version v)) := by
  rcases forall₂_getElem? h i with ⟨h1, h2⟩ | ⟨a, b, h1, h2, hab⟩
  · rw [h2] at hi; cases hi
  · rw [h2] at hi
    cases hi
    rcases a with e | a
    · exact hab.elim
    · cases a <;> try exact hab.elim
      rw [h1, hab.1]

theorem specifiers_back {l : List Nat} {ts : List Specifier} (hl : l.mapM (getSpecifier ref) = .ok ts) :
    ∃ ss, List.Forall₂ (RelSpecifier Q) ss ts ∧ List.Forall₂ (fun i s => rs[i]? = some (.ok (.specifier s))) l ss := by
  induction l generalizing ts with
  | nil => cases hl; exact ⟨[], .nil, .nil⟩
  | cons i l ih =>
    rw [List.mapM_cons] at hl
    cases h1 : getSpecifier ref i with
    | error e => rw [h1] at hl; cases hl
    | ok t =>
      rw [h1] at hl
      cases h2 : l.mapM (getSpecifier ref) with
      | error e => simp only [h2, bind, Except.bind] at hl; cases hl
      | ok ts' =>
        simp only [h2, bind, Except.bind, pure, Except.pure] at hl
        cases hl
        obtain ⟨s, hs, hr⟩ := specifier_back h (getSpecifier_ok h1)
        obtain ⟨ss, a, b⟩ := ih h2
        exact ⟨s :: ss, .cons hr a, .cons hs b⟩
end

theorem forall₂_exists {α β : Type} {R : α → β → Prop} {l : List α} {m : List β} (h : List.Forall₂ R l m) {P : β → Prop} :
    ((∃ b ∈ m, P b) → ∃ a ∈ l, ∃ b, R a b ∧ P b) ∧ ((∀ b ∈ m, P b) → ∀ a ∈ l, ∃ b, R a b ∧ P b) := by
  induction h with
  | nil => simp
  | cons h _ ih =>
    constructor
    · rintro ⟨b, hb, hP⟩
      rcases List.mem_cons.1 hb with rfl | hb
      · exact ⟨_, by simp, _, h, hP⟩
      · obtain ⟨a, ha, x⟩ := ih.1 ⟨b, hb, hP⟩
        exact ⟨a, by simp [ha], x⟩
    · intro hall a ha
      rcases List.mem_cons.1 ha with rfl | ha
      · exact ⟨_, h, hall _ (by simp)⟩
      · exact ih.2 (fun b hb => hall b (by simp [hb])) a ha

theorem forall₂_find {α β γ : Type} {R : α → β → Prop} {S : β → γ → Prop} {l : List α} {m : List β} {n : List γ}
    (h : List.Forall₂ R l m) (g : List.Forall₂ S m n) {a : α} (ha : a ∈ l) : ∃ b, R a b ∧ ∃ c, S b c ∧ c ∈ n := by
  induction h generalizing n with
  | nil => cases ha
  | cons h _ ih =>
    cases g with
    | cons g gs =>
      rcases List.mem_cons.1 ha with rfl | ha
      · exact ⟨_, h, _, g, by simp⟩
      · obtain ⟨b, hb, c, hc, hm⟩ := ih gs ha
        exact ⟨b, hb, c, hc, by simp [hm]⟩

theorem forall₂_back {α β γ : Type} {R : α → β → Prop} {S : β → γ → Prop} {l : List α} {m : List β} {n : List γ}
    (h : List.Forall₂ R l m) (g : List.Forall₂ S m n) {c : γ} (hc : c ∈ n) : ∃ a ∈ l, ∃ b, R a b ∧ S b c := by
  induction h generalizing n with
  | nil => cases g; cases hc
  | cons h _ ih =>
    cases g with
    | cons g gs =>
      rcases List.mem_cons.1 hc with rfl | hc
      · exact ⟨_, by simp, _, h, g⟩
      · obtain ⟨a, ha, b, hb⟩ := ih gs hc
        exact ⟨a, by simp [ha], b, hb⟩

theorem RelSet.wf {x y : VSet} (h : RelSet x y) : x.Wf ∧ y.Wf := by
  have : ∀ z : VSet, z.CanonicalEnds → z.Wf := by
    intro z hz
    cases z with
    | empty => trivial
    | item i => exact ⟨fun v hv => ((hz i (by simp [VSet.extract])).1 v hv).wf, fun v hv => ((hz i (by simp [VSet.extract])).2 v hv).wf⟩
    | union items => exact fun i hi => ⟨fun v hv => ((hz i hi).1 v hv).wf, fun v hv => ((hz i hi).2 v hv).wf⟩
  exact ⟨this x h.2.1, this y h.2.2⟩

theorem contains_eq {x : VSet} {v : Version} {b : Bool} (h : x.Mem v ↔ b = true) : x.contains v = b := by
  rw [Bool.eq_iff_iff, vset_contains_iff_mem, h]

theorem do_ok {α β : Type} {a : Except PyErr α} {f : α → Except PyErr β} {y : β} (h : a >>= f = .ok y) :
    ∃ x, a = .ok x ∧ f x = .ok y := by
  cases a with
  | error e => cases h
  | ok x => exact ⟨x, rfl, h⟩

theorem map_ok {α β : Type} {a : Except PyErr α} {f : α → β} {y : β} (h : a.map f = .ok y) : ∃ x, a = .ok x ∧ f x = y := by
  cases a with
  | error e => cases h
  | ok x => cases h; exact ⟨x, rfl, rfl⟩

theorem SameSet.of_ok {x : VSet} {a b : Except PyErr VSet} (h : SameSet a b) (hx : b = .ok x) : ∃ y, a = .ok y ∧ SameSet (.ok y) (.ok x) := by
  subst hx
  cases a with
  | error e => exact h.elim
  | ok y => exact ⟨y, rfl, h⟩

/-- A result, related to what the statement gives without caches, means what it should. -/
theorem run_gives (lim : Nat) {Q : Operator → Prop} (hQ : Alike Q) {rs ref : List Result}
    (h : List.Forall₂ (Related Q) rs ref) (st : Statement) {r : Outcome}
    (hr : Related Q (.ok r) (st.run (.plain (lim + 2)) (lim + 2) ref ()).1) : st.Gives rs r := by
  have valid : ∀ {s : Specifier}, s.Over Q → s.Valid := fun hs => Over.valid (hQ.coherent (lim + 2)) hs
  have convert : ∀ {s : Specifier} {x : VSet}, s.Over Q → s.toSet (lim + 2) = .ok x →
      x.Normal ∧ ∀ v : Version, s.accepts v = .ok (x.contains v) := by
    intro s x hs hx
    obtain ⟨h1, h2⟩ := C32_conversion_exact s (valid hs) _ x hx
    refine ⟨h1, fun v => ?_⟩
    obtain ⟨b, hb, hbm⟩ := h2 v
    rw [hb, contains_eq hbm.symm]
  obtain ⟨r', hr', hrel⟩ : ∃ r', (st.run (.plain (lim + 2)) (lim + 2) ref ()).1 = .ok r' ∧ RelOutcome Q r r' := by
    cases hx : (st.run (.plain (lim + 2)) (lim + 2) ref ()).1 with
    | error e => rw [hx] at hr; exact hr.elim
    | ok r' => rw [hx] at hr; exact ⟨r', rfl, hr⟩
  clear hr
  cases st with
  | parseVersion s =>
    obtain ⟨v, hv, rfl⟩ := map_ok hr'
    cases r <;> try exact hrel.elim
    obtain ⟨rfl, -⟩ := hrel
    exact hv
  | parseSpecifier s =>
    obtain ⟨t, ht, rfl⟩ := map_ok hr'
    cases r <;> try exact hrel.elim
    exact ⟨t, ht, hrel.1, hQ.accepts hrel.2.1 hrel.2.2 hrel.1⟩
  | parseVersionSet s =>
    obtain ⟨y, hy, rfl⟩ := map_ok hr'
    cases r <;> try exact hrel.elim
    obtain ⟨-, t, ht, hacc⟩ := C53_set _ _ _ hy
    refine ⟨t, ht, fun v => ?_⟩
    obtain ⟨b, hb, hbm⟩ := hacc v
    rw [hb, hrel.1.contains, contains_eq hbm.symm]
  | operator u i =>
    obtain ⟨w, hw, hr'⟩ := do_ok hr'
    obtain ⟨o, ho, hr'⟩ := do_ok hr'
    cases hr'
    have : o = ⟨u, w⟩ := by
      unfold Operator.create at ho
      split at ho <;> cases ho
      rfl
    subst this
    cases r <;> try exact hrel.elim
    exact ⟨w, version_back h (getVersion_ok hw), hrel.1, hQ.accepts hrel.2.1 hrel.2.2 hrel.1⟩
  | anyOf l =>
    obtain ⟨ts, hts, hr'⟩ := do_ok hr'
    obtain ⟨t, ht, hr'⟩ := do_ok hr'
    cases hr'
    cases r <;> try exact hrel.elim
    rename_i s
    obtain ⟨ss, hss, hl⟩ := specifiers_back h hts
    obtain ⟨-, hs1, hs2⟩ := eqList_of hss
    obtain ⟨t', ht', -, hacc⟩ := C35_any ts fun t hm => valid (hs2 t hm)
    rw [ht] at ht'
    cases ht'
    refine ⟨fun i hi => ?_, fun v => ?_⟩
    · obtain ⟨b, hb, -⟩ := (forall₂_exists hl (P := fun _ => True)).2 (by simp) i hi
      exact ⟨b, hb⟩
    obtain ⟨b, hb, hbm⟩ := hacc v
    refine ⟨b, by rw [hQ.accepts hrel.2.1 hrel.2.2 hrel.1, hb], hbm.trans ⟨fun hex => ?_, ?_⟩⟩
    · obtain ⟨a, ha, t, hat, htv⟩ := (forall₂_exists hss (P := fun t => t.accepts v = .ok true)).1 hex
      exact (forall₂_exists hl (P := fun s => s.accepts v = .ok true)).1
        ⟨a, ha, by rw [hQ.accepts hat.2.1 hat.2.2 hat.1, htv]⟩
    · rintro ⟨i, hi, s, his, hsv⟩
      obtain ⟨s', hs', t, hst, hm⟩ := forall₂_find hl hss hi
      rw [his] at hs'
      cases hs'
      exact ⟨t, hm, by rw [← hQ.accepts hst.2.1 hst.2.2 hst.1, hsv]⟩
  | allOf l =>
    obtain ⟨ts, hts, hr'⟩ := do_ok hr'
    obtain ⟨t, ht, hr'⟩ := do_ok hr'
    cases hr'
    cases r <;> try exact hrel.elim
    rename_i s
    obtain ⟨ss, hss, hl⟩ := specifiers_back h hts
    obtain ⟨-, hs1, hs2⟩ := eqList_of hss
    obtain ⟨t', ht', -, hacc⟩ := C35_all ts fun t hm => valid (hs2 t hm)
    rw [ht] at ht'
    cases ht'
    refine ⟨fun i hi => ?_, fun v => ?_⟩
    · obtain ⟨b, hb, -⟩ := (forall₂_exists hl (P := fun _ => True)).2 (by simp) i hi
      exact ⟨b, hb⟩
    obtain ⟨b, hb, hbm⟩ := hacc v
    refine ⟨b, by rw [hQ.accepts hrel.2.1 hrel.2.2 hrel.1, hb], hbm.trans ⟨fun hall i hi => ?_, fun hall t hm => ?_⟩⟩
    · obtain ⟨s, hs, t, hst, hm⟩ := forall₂_find hl hss hi
      exact ⟨s, hs, by rw [hQ.accepts hst.2.1 hst.2.2 hst.1, hall t hm]⟩
    · obtain ⟨i, hi, s, his, hst⟩ := forall₂_back hl hss hm
      obtain ⟨s', hs', hsv⟩ := hall i hi
      rw [his] at hs'
      cases hs'
      rw [← hQ.accepts hst.2.1 hst.2.2 hst.1, hsv]
  | toSet i =>
    simp only [run, call] at hr'
    cases ht : getSpecifier ref i with
    | error e => rw [ht] at hr'; cases hr'
    | ok t =>
      rw [ht] at hr'
      obtain ⟨y, hy, rfl⟩ := map_ok hr'
      cases r <;> try exact hrel.elim
      obtain ⟨s, hs, hst⟩ := specifier_back h (getSpecifier_ok ht)
      exact ⟨s, hs, fun v => by rw [hQ.accepts hst.2.1 hst.2.2 hst.1, (convert hst.2.2 hy).2, hrel.1.contains]⟩
  | fromSet i =>
    simp only [run, call] at hr'
    cases ht : getSet ref i with
    | error e => rw [ht] at hr'; cases hr'
    | ok y =>
      rw [ht] at hr'
      obtain ⟨t, hy, rfl⟩ := map_ok hr'
      cases r <;> try exact hrel.elim
      obtain ⟨x, hx, hxy⟩ := set_back h (getSet_ok ht)
      obtain ⟨t', ht', hacc, -⟩ := fromSet_spec hxy.1.2.1
      have : Specifier.fromSet (lim + 2) y = .ok t := hy
      rw [ht'] at this
      cases this
      exact ⟨x, hx, fun v => by rw [hQ.accepts hrel.2.1 hrel.2.2 hrel.1, hacc, hxy.1.contains]⟩
  | simplify i =>
    simp only [run, call] at hr'
    cases ht : getSpecifier ref i with
    | error e => rw [ht] at hr'; cases hr'
    | ok t =>
      rw [ht] at hr'
      dsimp only [Library.plain] at hr'
      cases hy : t.toSet (lim + 2) with
      | error e => rw [hy] at hr'; cases hr'
      | ok y =>
        rw [hy] at hr'
        obtain ⟨t', hf, rfl⟩ := map_ok hr'
        cases r <;> try exact hrel.elim
        obtain ⟨s, hs, hst⟩ := specifier_back h (getSpecifier_ok ht)
        obtain ⟨hn, hty⟩ := convert hst.2.2 hy
        obtain ⟨t'', ht'', hacc, -⟩ := fromSet_spec hn
        have : Specifier.fromSet (lim + 2) y = .ok t' := hf
        rw [ht''] at this
        cases this
        exact ⟨s, hs, fun v => by rw [hQ.accepts hrel.2.1 hrel.2.2 hrel.1, hacc, hQ.accepts hst.2.1 hst.2.2 hst.1, hty]⟩
  | intersection i j =>
    obtain ⟨x', hx', hr'⟩ := do_ok hr'
    obtain ⟨y', hy', hr'⟩ := do_ok hr'
    obtain ⟨z', hz', hr'⟩ := do_ok hr'
    cases hr'
    cases r <;> try exact hrel.elim
    obtain ⟨x, hx, hxx⟩ := set_back h (getSet_ok hx')
    obtain ⟨y, hy, hyy⟩ := set_back h (getSet_ok hy')
    obtain ⟨s, hs, hmem⟩ := C20_intersection_exact x' y' hxx.1.2.1 hyy.1.2.1
    rw [hs] at hz'
    cases hz'
    refine ⟨x, y, hx, hy, fun v => ?_⟩
    rw [hrel.1.contains, hxx.1.contains, hyy.1.contains, Bool.eq_iff_iff, hmem]
    simp [vset_contains_iff_mem]
  | union i j =>
    obtain ⟨x', hx', hr'⟩ := do_ok hr'
    obtain ⟨y', hy', hr'⟩ := do_ok hr'
    obtain ⟨z', hz', hr'⟩ := do_ok hr'
    cases hr'
    cases r <;> try exact hrel.elim
    obtain ⟨x, hx, hxx⟩ := set_back h (getSet_ok hx')
    obtain ⟨y, hy, hyy⟩ := set_back h (getSet_ok hy')
    refine ⟨x, y, hx, hy, fun v => ?_⟩
    rw [hrel.1.contains, hxx.1.contains, hyy.1.contains, Bool.eq_iff_iff,
      C21_union_exact x' y' z' hxx.1.2.1 hyy.1.2.1 _ hz']
    simp [vset_contains_iff_mem]
  | difference i j =>
    obtain ⟨x', hx', hr'⟩ := do_ok hr'
    obtain ⟨y', hy', hr'⟩ := do_ok hr'
    obtain ⟨z', hz', hr'⟩ := do_ok hr'
    cases hr'
    cases r <;> try exact hrel.elim
    obtain ⟨x, hx, hxx⟩ := set_back h (getSet_ok hx')
    obtain ⟨y, hy, hyy⟩ := set_back h (getSet_ok hy')
    refine ⟨x, y, hx, hy, fun h1 h2 v => ?_⟩
    obtain ⟨s, hs, hmem⟩ := C23_difference_exact x y hxx.1.1 hyy.1.1 h1 h2
    obtain ⟨s', hs', hss⟩ := (difference_same hxx.1 hyy.1 (lim + 2)).of_ok hz'
    rw [hs] at hs'
    cases hs'
    rw [hrel.1.contains, ← hss.contains, Bool.eq_iff_iff, hmem]
    simp [← vset_contains_iff_mem]
  | symmetricDifference i j =>
    obtain ⟨x', hx', hr'⟩ := do_ok hr'
    obtain ⟨y', hy', hr'⟩ := do_ok hr'
    obtain ⟨z', hz', hr'⟩ := do_ok hr'
    cases hr'
    cases r <;> try exact hrel.elim
    obtain ⟨x, hx, hxx⟩ := set_back h (getSet_ok hx')
    obtain ⟨y, hy, hyy⟩ := set_back h (getSet_ok hy')
    obtain ⟨s, hs, hss⟩ := (symmetricDifference_same hxx.1 hyy.1 lim).of_ok hz'
    refine ⟨x, y, hx, hy, ?_, ?_, ?_⟩
    · rintro items rfl
      cases hs
    · rintro rfl v
      cases hs
      rw [hrel.1.contains, ← hss.contains]
    · rintro ⟨w, hw1, hw2⟩ v
      rw [hrel.1.contains, ← hss.contains]
      rw [vset_contains_iff_mem] at hw1 hw2
      cases x with
      | empty => exact hw1.elim
      | union items => cases hs
      | item a =>
        obtain ⟨u, hu, -⟩ := do_ok hs
        have := (C25_symmetric_difference a y u s hxx.1.1 hyy.1.1 _ hu hs).1 (.inl ⟨w, hw1, hw2⟩) v
        have ha := vset_contains_iff_mem (.item a) v
        have hy' := vset_contains_iff_mem y v
        change (VSet.item a).contains v = true ↔ a.Mem v at ha
        rw [← ha, ← hy'] at this
        cases h1 : (VSet.item a).contains v <;> cases h2 : y.contains v <;> simp_all
  | complement i =>
    obtain ⟨x', hx', hr'⟩ := do_ok hr'
    obtain ⟨z', hz', hr'⟩ := do_ok hr'
    cases hr'
    cases r <;> try exact hrel.elim
    obtain ⟨x, hx, hxx⟩ := set_back h (getSet_ok hx')
    obtain ⟨s, hs, hmem⟩ := C24_complement_exact x' hxx.1.2.1
    rw [hs] at hz'
    cases hz'
    refine ⟨x, hx, fun v => ?_⟩
    rw [hrel.1.contains, hxx.1.contains, Bool.eq_iff_iff, hmem]
    simp [← vset_contains_iff_mem]
  | accepts i j =>
    obtain ⟨t, ht, hr'⟩ := do_ok hr'
    obtain ⟨v, hv, hr'⟩ := do_ok hr'
    obtain ⟨b, hb, hr'⟩ := do_ok hr'
    cases hr'
    cases r <;> try exact hrel.elim
    cases hrel
    obtain ⟨s, hs, hst⟩ := specifier_back h (getSpecifier_ok ht)
    exact ⟨s, v, hs, version_back h (getVersion_ok hv), by rw [hQ.accepts hst.2.1 hst.2.2 hst.1, hb]⟩
  | contains i j =>
    obtain ⟨x', hx', hr'⟩ := do_ok hr'
    obtain ⟨v, hv, hr'⟩ := do_ok hr'
    cases hr'
    cases r <;> try exact hrel.elim
    cases hrel
    obtain ⟨x, hx, hxx⟩ := set_back h (getSet_ok hx')
    exact ⟨x, v, hx, version_back h (getVersion_ok hv), hxx.1.contains v⟩
  | sameSpecifier i j =>
    obtain ⟨t, ht, hr'⟩ := do_ok hr'
    obtain ⟨t', ht', hr'⟩ := do_ok hr'
    cases hr'
    cases r <;> try exact hrel.elim
    cases hrel
    obtain ⟨s, hs, hst⟩ := specifier_back h (getSpecifier_ok ht)
    obtain ⟨s', hs', hst'⟩ := specifier_back h (getSpecifier_ok ht')
    have he := Specifier.eq_eq hst.1 hst'.1
    exact ⟨s, s', hs, hs', he, fun hb => hQ.accepts hst.2.1 hst'.2.1 (he.trans hb)⟩
  | sameSet i j =>
    obtain ⟨x', hx', hr'⟩ := do_ok hr'
    obtain ⟨y', hy', hr'⟩ := do_ok hr'
    cases hr'
    cases r <;> try exact hrel.elim
    cases hrel
    obtain ⟨x, hx, hxx⟩ := set_back h (getSet_ok hx')
    obtain ⟨y, hy, hyy⟩ := set_back h (getSet_ok hy')
    refine ⟨x, y, hx, hy, ?_⟩
    rw [← hxx.1.eq_eq hyy.1, C28_eq_iff_same_versions x y hxx.1.1 hyy.1.1 hxx.wf.1 hyy.wf.1]
    exact forall_congr' fun v => forall_congr' fun _ => by
      rw [Bool.eq_iff_iff, vset_contains_iff_mem, vset_contains_iff_mem]

/-! ### exceptions -/

/-- There is no version at `i`. -/
def NoVersion (rs : List Result) (i : Nat) : Prop := ∀ v, rs[i]? ≠ some (.ok (.version v))

/-- There is no specifier at `i`. -/
def NoSpecifier (rs : List Result) (i : Nat) : Prop := ∀ s, rs[i]? ≠ some (.ok (.specifier s))

/-- There is no set at `i`. -/
def NoSet (rs : List Result) (i : Nat) : Prop := ∀ x, rs[i]? ≠ some (.ok (.set x))

/-- `ValueError` for a broken operator, or `RecursionError`. -/
def Specifier.FailsWith (s : Specifier) (e : PyErr) : Prop := (e = .valueError ∧ ∃ o, s.Uses o ∧ o.Broken) ∨ e = .recursionError

/-- Why a statement can raise an exception, given the results `rs` before it. -/
def Statement.Fails (rs : List Result) (e : PyErr) : Statement → Prop
  | .parseVersion s => Version.parse s = .error e
  | .parseSpecifier s => Specifier.parse s = .error e
  | .parseVersionSet s => Specifier.parse s = .error e ∨ ∃ t, Specifier.parse s = .ok t ∧ t.FailsWith e
  | .operator u i => (e = .typeError ∧ NoVersion rs i) ∨
      (e = .valueError ∧ u = .tildeEqual ∧ ∃ v, rs[i]? = some (.ok (.version v)) ∧ v.lastIndex = 0)
  | .anyOf l => e = .typeError ∧ ∃ i ∈ l, NoSpecifier rs i
  | .allOf l => e = .typeError ∧ ∃ i ∈ l, NoSpecifier rs i
  | .toSet i => (e = .typeError ∧ NoSpecifier rs i) ∨ ∃ s, rs[i]? = some (.ok (.specifier s)) ∧ s.FailsWith e
  | .fromSet i => e = .typeError ∧ NoSet rs i
  | .simplify i => (e = .typeError ∧ NoSpecifier rs i) ∨ ∃ s, rs[i]? = some (.ok (.specifier s)) ∧ s.FailsWith e
  | .intersection i j => e = .typeError ∧ (NoSet rs i ∨ NoSet rs j)
  | .union i j => (e = .typeError ∧ (NoSet rs i ∨ NoSet rs j)) ∨
      (e = .recursionError ∧ ∃ x y, rs[i]? = some (.ok (.set x)) ∧ rs[j]? = some (.ok (.set y)) ∧
        Clash fun a => x.Has a ∨ y.Has a)
  | .difference i j => (e = .typeError ∧ (NoSet rs i ∨ NoSet rs j)) ∨
      ∃ x y, rs[i]? = some (.ok (.set x)) ∧ rs[j]? = some (.ok (.set y)) ∧ ((∃ items, x = .union items ∧ y = .empty) ∨
        ∃ r items, x = .item (.range r) ∧ y = .union items ∧ ∃ j ∈ items, ∀ v, (Item.range r).Mem v → j.Mem v)
  | .symmetricDifference i j => (e = .typeError ∧ (NoSet rs i ∨ NoSet rs j)) ∨
      ∃ x y, rs[i]? = some (.ok (.set x)) ∧ rs[j]? = some (.ok (.set y)) ∧ x ≠ .empty ∧
        ((∃ items, x = .union items) → e = .attributeError)
  | .complement i => e = .typeError ∧ NoSet rs i
  | .accepts i j => e = .typeError ∧ (NoSpecifier rs i ∨ NoVersion rs j)
  | .contains i j => e = .typeError ∧ (NoSet rs i ∨ NoVersion rs j)
  | .sameSpecifier i j => e = .typeError ∧ (NoSpecifier rs i ∨ NoSpecifier rs j)
  | .sameSet i j => e = .typeError ∧ (NoSet rs i ∨ NoSet rs j)

theorem do_error {α β : Type} {a : Except PyErr α} {f : α → Except PyErr β} {e : PyErr} (h : a >>= f = .error e) :
    a = .error e ∨ ∃ x, a = .ok x ∧ f x = .error e := by
  cases a with
  | error e' => cases h; exact .inl rfl
  | ok x => exact .inr ⟨x, rfl, h⟩

theorem map_error {α β : Type} {a : Except PyErr α} {f : α → β} {e : PyErr} (h : a.map f = .error e) : a = .error e := by
  cases a with
  | error e' => cases h; rfl
  | ok x => cases h

theorem SameSet.of_error {a b : Except PyErr VSet} {e : PyErr} (h : SameSet a b) (hb : b = .error e) : a = .error e := by
  subst hb
  cases a with
  | error f => exact congrArg _ h
  | ok x => exact h.elim

theorem Specifier.Over.uses {Q : Operator → Prop} {s : Specifier} (h : s.Over Q) {o : Operator} (ho : s.Uses o) : Q o := by
  induction ho with
  | one o => cases h with | one h => exact h
  | any hm _ ih => cases h with | any _ h => exact ih (h _ hm)
  | all hm _ ih => cases h with | all _ h => exact ih (h _ hm)

section
variable {Q : Operator → Prop} {rs ref : List Result} (h : List.Forall₂ (Related Q) rs ref) {i : Nat} {e : PyErr}
include h

theorem set_gone (hi : getSet ref i = .error e) : e = .typeError ∧ NoSet rs i := by
  have hr := getSet_rel h i
  rw [hi] at hr
  unfold getSet at hi
  split at hi
  · cases hi
  · cases hi
    refine ⟨rfl, fun x hx => ?_⟩
    simp only [getSet, hx] at hr
    exact hr

theorem specifier_gone (hi : getSpecifier ref i = .error e) : e = .typeError ∧ NoSpecifier rs i := by
  have hr := getSpecifier_rel h i
  rw [hi] at hr
  unfold getSpecifier at hi
  split at hi
  · cases hi
  · cases hi
    refine ⟨rfl, fun x hx => ?_⟩
    simp only [getSpecifier, hx] at hr
    exact hr

theorem version_gone (hi : getVersion ref i = .error e) : e = .typeError ∧ NoVersion rs i := by
  have hr := getVersion_rel h i
  rw [hi] at hr
  unfold getVersion at hi
  split at hi
  · cases hi
  · cases hi
    refine ⟨rfl, fun x hx => ?_⟩
    simp only [getVersion, hx] at hr
    exact hr

theorem specifiers_gone {l : List Nat} (hl : l.mapM (getSpecifier ref) = .error e) : e = .typeError ∧ ∃ i ∈ l, NoSpecifier rs i := by
  induction l with
  | nil => cases hl
  | cons i l ih =>
    rw [List.mapM_cons] at hl
    rcases do_error hl with hl | ⟨t, -, hl⟩
    · obtain ⟨h1, h2⟩ := specifier_gone h hl
      exact ⟨h1, i, by simp, h2⟩
    · rcases do_error hl with hl | ⟨ts, -, hl⟩
      · obtain ⟨h1, j, hj, h2⟩ := ih hl
        exact ⟨h1, j, by simp [hj], h2⟩
      · cases hl
end

/-- An exception, where the statement without caches raises one, has the reasons it should. -/
theorem run_fails (lim : Nat) {Q : Operator → Prop} (hQ : Alike Q) {rs ref : List Result}
    (h : List.Forall₂ (Related Q) rs ref) (st : Statement) {e : PyErr}
    (hr' : (st.run (.plain (lim + 2)) (lim + 2) ref ()).1 = .error e) : st.Fails rs e := by
  have valid : ∀ {s : Specifier}, s.Over Q → s.Valid := fun hs => Over.valid (hQ.coherent (lim + 2)) hs
  have convert : ∀ {s t : Specifier}, RelSpecifier Q s t → t.toSet (lim + 2) = .error e → s.FailsWith e := by
    intro s t hst ht
    exact (C88_conversion s (valid hst.2.1) (fun o ho => (hQ.valid o (hst.2.1.uses ho)).nonNeg) lim).2 e
      ((Specifier.eq_same (hQ.coherent (lim + 2)) hst.2.1 hst.2.2 hst.1).of_error ht)
  cases st with
  | parseVersion s => exact map_error hr'
  | parseSpecifier s => exact map_error hr'
  | parseVersionSet s =>
    rcases do_error (map_error hr') with hs | ⟨t, ht, hs⟩
    · exact .inl hs
    · exact .inr ⟨t, ht, (C88_conversion t (C52_valid s t ht) (fun o ho => (parse_uses ht ho).1.nonNeg) lim).2 e hs⟩
  | operator u i =>
    rcases do_error hr' with hw | ⟨w, hw, hr'⟩
    · exact .inl (version_gone h hw)
    · rcases do_error hr' with ho | ⟨o, ho, hr'⟩
      · unfold Operator.create at ho
        split at ho
        · next hc =>
          cases ho
          exact .inr ⟨rfl, hc.1, w, version_back h (getVersion_ok hw), hc.2⟩
        · cases ho
      · cases hr'
  | anyOf l =>
    rcases do_error hr' with hl | ⟨ts, hts, hr'⟩
    · exact specifiers_gone h hl
    · obtain ⟨ss, hss, -⟩ := specifiers_back h hts
      obtain ⟨t, ht, -⟩ := C35_any ts fun t hm => valid ((eqList_of hss).2.2 t hm)
      rw [ht] at hr'
      cases hr'
  | allOf l =>
    rcases do_error hr' with hl | ⟨ts, hts, hr'⟩
    · exact specifiers_gone h hl
    · obtain ⟨ss, hss, -⟩ := specifiers_back h hts
      obtain ⟨t, ht, -⟩ := C35_all ts fun t hm => valid ((eqList_of hss).2.2 t hm)
      rw [ht] at hr'
      cases hr'
  | toSet i =>
    simp only [run, call] at hr'
    cases ht : getSpecifier ref i with
    | error e' => rw [ht] at hr'; cases hr'; exact .inl (specifier_gone h ht)
    | ok t =>
      rw [ht] at hr'
      obtain ⟨s, hs, hst⟩ := specifier_back h (getSpecifier_ok ht)
      exact .inr ⟨s, hs, convert hst (map_error hr')⟩
  | fromSet i =>
    simp only [run, call] at hr'
    cases ht : getSet ref i with
    | error e' => rw [ht] at hr'; cases hr'; exact set_gone h ht
    | ok y =>
      rw [ht] at hr'
      obtain ⟨x, hx, hxy⟩ := set_back h (getSet_ok ht)
      obtain ⟨t', ht', -⟩ := fromSet_spec hxy.1.2.1
      have : Specifier.fromSet (lim + 2) y = .error e := map_error hr'
      rw [ht'] at this
      cases this
  | simplify i =>
    simp only [run, call] at hr'
    cases ht : getSpecifier ref i with
    | error e' => rw [ht] at hr'; cases hr'; exact .inl (specifier_gone h ht)
    | ok t =>
      rw [ht] at hr'
      obtain ⟨s, hs, hst⟩ := specifier_back h (getSpecifier_ok ht)
      dsimp only [Library.plain] at hr'
      cases hy : t.toSet (lim + 2) with
      | error e' => rw [hy] at hr'; cases hr'; exact .inr ⟨s, hs, convert hst hy⟩
      | ok y =>
        rw [hy] at hr'
        obtain ⟨t', ht', -⟩ := fromSet_spec (C32_conversion_exact t (valid hst.2.2) _ y hy).1
        have : Specifier.fromSet (lim + 2) y = .error e := map_error hr'
        rw [ht'] at this
        cases this
  | intersection i j =>
    rcases do_error hr' with hx | ⟨x', hx', hr'⟩
    · exact (set_gone h hx).imp_right .inl
    rcases do_error hr' with hy | ⟨y', hy', hr'⟩
    · exact (set_gone h hy).imp_right .inr
    obtain ⟨x, hx, hxx⟩ := set_back h (getSet_ok hx')
    obtain ⟨y, hy, hyy⟩ := set_back h (getSet_ok hy')
    obtain ⟨s, hs, -⟩ := C20_intersection_exact x' y' hxx.1.2.1 hyy.1.2.1
    rw [hs] at hr'
    cases hr'
  | union i j =>
    rcases do_error hr' with hx | ⟨x', hx', hr'⟩
    · exact .inl ((set_gone h hx).imp_right .inl)
    rcases do_error hr' with hy | ⟨y', hy', hr'⟩
    · exact .inl ((set_gone h hy).imp_right .inr)
    obtain ⟨x, hx, hxx⟩ := set_back h (getSet_ok hx')
    obtain ⟨y, hy, hyy⟩ := set_back h (getSet_ok hy')
    rcases do_error hr' with hu | ⟨u, -, hr'⟩
    · have he := (union_same hxx.1 hyy.1 lim).of_error hu
      have hc : ¬ (¬ Clash (fun i => x.Has i ∨ y.Has i) ∨ ((∃ r, x = .item (.range r)) ∧ ∃ v, y = .item (.point v))) := by
        intro hn
        obtain ⟨s, hs⟩ := C22_union_returns x y hxx.1.1 hyy.1.1 hn
        rw [hs] at he
        cases he
      obtain ⟨hc1, hc2⟩ := not_or.1 hc
      rw [not_not] at hc1
      rw [C22_union_diverges x y hxx.1.1 hyy.1.1 hc1 hc2] at he
      cases he
      exact .inr ⟨rfl, x, y, hx, hy, hc1⟩
    · cases hr'
  | difference i j =>
    rcases do_error hr' with hx | ⟨x', hx', hr'⟩
    · exact .inl ((set_gone h hx).imp_right .inl)
    rcases do_error hr' with hy | ⟨y', hy', hr'⟩
    · exact .inl ((set_gone h hy).imp_right .inr)
    obtain ⟨x, hx, hxx⟩ := set_back h (getSet_ok hx')
    obtain ⟨y, hy, hyy⟩ := set_back h (getSet_ok hy')
    rcases do_error hr' with hu | ⟨u, -, hr'⟩
    · have he := (difference_same hxx.1 hyy.1 (lim + 2)).of_error hu
      refine .inr ⟨x, y, hx, hy, ?_⟩
      by_contra hn
      obtain ⟨h1, h2⟩ := not_or.1 hn
      obtain ⟨s, hs, -⟩ := C23_difference_exact x y hxx.1.1 hyy.1.1 (fun items hi => h1 ⟨items, hi⟩)
        (fun r items hx hy j hj hc => h2 ⟨r, items, hx, hy, j, hj, hc⟩)
      rw [hs] at he
      cases he
    · cases hr'
  | symmetricDifference i j =>
    rcases do_error hr' with hx | ⟨x', hx', hr'⟩
    · exact .inl ((set_gone h hx).imp_right .inl)
    rcases do_error hr' with hy | ⟨y', hy', hr'⟩
    · exact .inl ((set_gone h hy).imp_right .inr)
    obtain ⟨x, hx, hxx⟩ := set_back h (getSet_ok hx')
    obtain ⟨y, hy, hyy⟩ := set_back h (getSet_ok hy')
    rcases do_error hr' with hu | ⟨u, -, hr'⟩
    · have he := (symmetricDifference_same hxx.1 hyy.1 lim).of_error hu
      refine .inr ⟨x, y, hx, hy, ?_, ?_⟩
      · rintro rfl; cases he
      · rintro ⟨items, rfl⟩; cases he; rfl
    · cases hr'
  | complement i =>
    rcases do_error hr' with hx | ⟨x', hx', hr'⟩
    · exact set_gone h hx
    obtain ⟨x, hx, hxx⟩ := set_back h (getSet_ok hx')
    obtain ⟨s, hs, -⟩ := C24_complement_exact x' hxx.1.2.1
    rw [hs] at hr'
    cases hr'
  | accepts i j =>
    rcases do_error hr' with hx | ⟨t, ht, hr'⟩
    · exact (specifier_gone h hx).imp_right .inl
    rcases do_error hr' with hy | ⟨v, hv, hr'⟩
    · exact (version_gone h hy).imp_right .inr
    obtain ⟨s, hs, hst⟩ := specifier_back h (getSpecifier_ok ht)
    obtain ⟨b, hb⟩ := C32_accepts_total t (valid hst.2.2) v
    rw [hb] at hr'
    cases hr'
  | contains i j =>
    rcases do_error hr' with hx | ⟨x', hx', hr'⟩
    · exact (set_gone h hx).imp_right .inl
    rcases do_error hr' with hy | ⟨v, hv, hr'⟩
    · exact (version_gone h hy).imp_right .inr
    cases hr'
  | sameSpecifier i j =>
    rcases do_error hr' with hx | ⟨t, ht, hr'⟩
    · exact (specifier_gone h hx).imp_right .inl
    rcases do_error hr' with hy | ⟨t', ht', hr'⟩
    · exact (specifier_gone h hy).imp_right .inr
    cases hr'
  | sameSet i j =>
    rcases do_error hr' with hx | ⟨x', hx', hr'⟩
    · exact (set_gone h hx).imp_right .inl
    rcases do_error hr' with hy | ⟨y', hy', hr'⟩
    · exact (set_gone h hy).imp_right .inr
    cases hr'

/-! ### threads -/

theorem forall₂_take {α β : Type} {R : α → β → Prop} {l : List α} {m : List β} (h : List.Forall₂ R l m) (k : Nat) :
    List.Forall₂ R (l.take k) (m.take k) := by
  induction h generalizing k with
  | nil => simp
  | cons h _ ih => cases k with
    | zero => simp
    | succ k => exact .cons h (ih k)

theorem threads_related (hash : PyStr → Int) (H : Hasher) (lim : Nat) (programs : List (List Statement))
    (h : ∀ P ∈ programs, ∀ P' ∈ programs, ∀ o p, Makes (lim + 2) P o → Makes (lim + 2) P' p → o.eq p = true →
      o.type.SameReading o.version p.version) (steps : List Nat) (i : Nat) (program : List Statement)
    (hi : programs[i]? = some program) (results : List Result)
    (hr : (threadsAfter hash H (lim + 2) programs steps).1[i]? = some (.done results)) :
    ∃ Q, Alike Q ∧ List.Forall₂ (Related Q) results (reference (lim + 2) program) := by
  have hM : ∀ o p, (∃ P ∈ programs, Makes (lim + 2) P o) → (∃ P ∈ programs, Makes (lim + 2) P p) → o.eq p = true →
      o.type.SameReading o.version p.version := by
    rintro o p ⟨P, hP, ho⟩ ⟨P', hP', hp⟩
    exact h P hP P' hP' o p ho hp
  have hQ := inUse_alike hM
  refine ⟨_, hQ, ?_⟩
  have := schedule_right (hash := hash) (H := H) (lim := lim) hQ (fun o ho => ho.1.2)
    (R := fun i rs => ∀ P, programs[i]? = some P →
      List.Forall₂ (Related (InUse fun o => ∃ P, P ∈ programs ∧ Makes (lim + 2) P o)) rs (reference (lim + 2) P))
    steps (ts := programs.map (thread (lim + 2) [])) (m := []) (fun j t hj => ?_) (by intro e he; cases he) i _ hr
  · exact this program hi
  · rw [List.getElem?_map, Option.map_eq_some_iff] at hj
    obtain ⟨P, hP, rfl⟩ := hj
    have hmem := List.mem_of_getElem? hP
    refine (thread_right lim hM P .nil (fun s hs o ho => ⟨P, hmem, .inl ⟨s, hs, ho⟩⟩)
      (fun string s hm hs o ho => ⟨P, hmem, .inr ⟨string, s, hm, hs, ho⟩⟩)).mono fun rs hrs P' hP' => ?_
    rw [hP] at hP'
    cases hP'
    exact hrs

/-- C98. Whenever a thread is through, there is a result for each statement of its program, in order. What a statement returned
is what its name says of the results before it, and what it raised has one of the reasons that there are: in particular
intersections, complements, conversions of sets to specifiers, `accepts`, `in` and comparisons never fail, and unions only by
`RecursionError` where a point and a range clash. -/
theorem C98_meaning (hash : PyStr → Int) (H : Hasher) (lim : Nat) (programs : List (List Statement))
    (h : ∀ P ∈ programs, ∀ P' ∈ programs, ∀ o p, Makes (lim + 2) P o → Makes (lim + 2) P' p → o.eq p = true →
      o.type.SameReading o.version p.version) (steps : List Nat) (i : Nat) (program : List Statement)
    (hi : programs[i]? = some program) (results : List Result)
    (hr : (threadsAfter hash H (lim + 2) programs steps).1[i]? = some (.done results)) :
    results.length = program.length ∧ ∀ (k : Nat) (st : Statement), program[k]? = some st →
      (∃ o, results[k]? = some (.ok o) ∧ st.Gives (results.take k) o) ∨
      (∃ e, results[k]? = some (.error e) ∧ st.Fails (results.take k) e) := by
  obtain ⟨Q, hQ, hrel⟩ := threads_related hash H lim programs h steps i program hi results hr
  refine ⟨?_, fun k st hk => ?_⟩
  · rw [hrel.length_eq, reference, runFrom_length]
    simp
  · have hget := runFrom_get (lim + 2) program [] k st hk
    simp only [List.length_nil, Nat.zero_add] at hget
    rcases forall₂_getElem? hrel k with ⟨-, h2⟩ | ⟨a, b, h1, h2, hab⟩
    · rw [reference, hget] at h2
      cases h2
    · rw [reference, hget] at h2
      cases h2
      have htake := forall₂_take hrel k
      rcases a with e | o
      · refine .inr ⟨e, h1, run_fails lim hQ htake st ?_⟩
        unfold reference
        revert hab
        cases (st.run (.plain (lim + 2)) (lim + 2) ((runFrom (.plain (lim + 2)) (lim + 2) [] () program).take k) ()).1 with
        | error f => intro hab; exact congrArg _ (Eq.symm hab)
        | ok x => intro hab; exact hab.elim
      · exact .inl ⟨o, h1, run_gives lim hQ htake st hab⟩

/-- In whatever way two threads take turns, the second reads the set of `^1` and its complement contains the other versions. -/
example (hash : PyStr → Int) (H : Hasher) (steps : List Nat) (results : List Result)
    (hr : (threadsAfter hash H 7 [[.parseVersionSet "<1".toList], [.parseVersionSet "^1".toList, .complement 0]] steps).1[1]? =
      some (.done results)) :
    ∃ x y, results = [.ok (.set x), .ok (.set y)] ∧ ∀ v : Version, y.contains v = !x.contains v := by
  have p1 : Specifier.parse "<1".toList = .ok (.one ⟨.less, exVersion [1]⟩) := by rfl
  have p2 : Specifier.parse "^1".toList = .ok (.one ⟨.caret, exVersion [1]⟩) := by rfl
  have r1 : reference 7 [.parseVersionSet "<1".toList] = [.ok (.set (.item (exRange none (some [1]) false)))] := by rfl
  have r2 : ∃ x y, reference 7 [.parseVersionSet "^1".toList, .complement 0] = [.ok (.set x), .ok (.set y)] := ⟨_, _, by rfl⟩
  have hm : ∀ P ∈ [[Statement.parseVersionSet "<1".toList], [.parseVersionSet "^1".toList, .complement 0]], ∀ o, Makes 7 P o →
      o = ⟨.less, exVersion [1]⟩ ∨ o = ⟨.caret, exVersion [1]⟩ := by
    intro P hP o ho
    simp only [List.mem_cons, List.not_mem_nil, or_false] at hP
    rcases hP with rfl | rfl <;> rcases ho with ⟨s, hs, ho⟩ | ⟨string, s, hs, hp, ho⟩
    · rw [r1] at hs
      simp at hs
    · simp only [List.mem_cons, Statement.parseVersionSet.injEq, List.not_mem_nil, or_false] at hs
      subst hs
      rw [p1] at hp
      cases hp
      cases ho; exact .inl rfl
    · obtain ⟨x, y, hxy⟩ := r2
      rw [hxy] at hs
      simp at hs
    · simp only [List.mem_cons, Statement.parseVersionSet.injEq, reduceCtorEq, List.not_mem_nil, or_false] at hs
      subst hs
      rw [p2] at hp
      cases hp
      cases ho; exact .inr rfl
  have hs : ∀ P ∈ [[Statement.parseVersionSet "<1".toList], [.parseVersionSet "^1".toList, .complement 0]],
      ∀ P' ∈ [[Statement.parseVersionSet "<1".toList], [.parseVersionSet "^1".toList, .complement 0]], ∀ o p, Makes 7 P o →
      Makes 7 P' p → o.eq p = true → o.type.SameReading o.version p.version := by
    intro P hP P' hP' o p ho hp he
    rcases hm P hP o ho with rfl | rfl <;> rcases hm P' hP' p hp with rfl | rfl
    · trivial
    · exact absurd he (by decide +kernel)
    · exact absurd he (by decide +kernel)
    · exact fun _ _ _ => rfl
  have same := C97_threads hash H 5 _ hs steps 1 _ rfl results hr
  obtain ⟨x, y, hxy⟩ := r2
  rw [hxy] at same
  obtain ⟨-, key⟩ := C98_meaning hash H 5 _ hs steps 1 _ rfl results hr
  clear hr
  obtain ⟨a, l, ha, hl, rfl⟩ := List.forall₂_cons_right_iff.1 same
  obtain ⟨b, m, hb, hm', rfl⟩ := List.forall₂_cons_right_iff.1 hl
  obtain rfl := List.forall₂_nil_right_iff.1 hm'
  rcases a with e | a
  · exact ha.elim
  rcases b with e | b
  · exact hb.elim
  cases a <;> try exact ha.elim
  cases b <;> try exact hb.elim
  refine ⟨_, _, rfl, ?_⟩
  rcases key 1 _ rfl with ⟨o, ho, hg⟩ | ⟨e, he, -⟩
  · cases ho
    obtain ⟨x', hx', hg⟩ := hg
    cases hx'
    exact hg
  · cases he

end Verif
