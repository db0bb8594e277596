import Verif.Model.ItemsDifference
import Verif.Props.Sets
/-!
# Properties of `ItemsDifference` as an object (C87)
-/

namespace Verif
open scoped Verif
open VSet (Diff)

namespace ItemsDifference

/-- Some calls of `step` that return `True` lead from one object to the other. -/
inductive Stepped (lim : Nat) : ItemsDifference → ItemsDifference → Prop
  | refl (o : ItemsDifference) : Stepped lim o o
  | next {o o' o'' : ItemsDifference} : o.step lim = (o', .ok true) → Stepped lim o' o'' → Stepped lim o o''

theorem step_prepared (lim : Nat) (o : ItemsDifference) : (o.step lim).1.prepared = o.prepared := by
  unfold step; split
  · rfl
  · split <;> rfl

theorem rounds_prepared (lim n : Nat) (o : ItemsDifference) : (o.rounds lim n).1.prepared = o.prepared := by
  induction n generalizing o with
  | zero => rfl
  | succ n ih =>
    have := step_prepared lim o
    simp only [rounds]
    split <;> rename_i h <;> rw [h] at this
    · rw [ih]; exact this
    · exact this
    · exact this

theorem nextOther_less {d : Diff} (h : d.nextOtherCurrent.2 = true) :
    d.nextOtherCurrent.1.items.length + d.nextOtherCurrent.1.otherItems.length < d.items.length + d.otherItems.length := by
  unfold VSet.Diff.nextOtherCurrent at *
  cases ho : d.otherItems with
  | nil => simp [ho] at h
  | cons x l => simp

theorem next_less {d : Diff} {b : Bool} (h : (d.nextCurrent b).2 = true) :
    (d.nextCurrent b).1.items.length + (d.nextCurrent b).1.otherItems.length < d.items.length + d.otherItems.length := by
  unfold VSet.Diff.nextCurrent at *
  cases ho : d.items with
  | nil => simp [ho] at h
  | cons x l => simp

theorem diffStep_less {lim : Nat} {d d' : Diff} (h : d.step lim = .ok (d', true)) :
    d'.items.length + d'.otherItems.length < d.items.length + d.otherItems.length := by
  have k1 : ∀ d : Diff, d.nextOtherCurrent = (d', true) →
      d'.items.length + d'.otherItems.length < d.items.length + d.otherItems.length := by
    intro d h
    have := nextOther_less (d := d) (by rw [h])
    rwa [h] at this
  have k2 : ∀ (d : Diff) (b : Bool), d.nextCurrent b = (d', true) →
      d'.items.length + d'.otherItems.length < d.items.length + d.otherItems.length := by
    intro d b h
    have := next_less (d := d) (b := b) (by rw [h])
    rwa [h] at this
  unfold VSet.Diff.step at h
  split at h
  · split at h
    · exact k1 d (Except.ok.inj h)
    · split at h
      · exact k2 d _ (Except.ok.inj h)
      · simp only [bind, Except.bind] at h
        split at h
        · cases h
        · split at h
          · split at h
            · exact k1 { d with result := _, current := some _ } (Except.ok.inj h)
            · cases h
          · exact k2 d _ (Except.ok.inj h)
          · split at h
            · exact k1 { d with current := some _ } (Except.ok.inj h)
            · exact k2 { d with current := some _ } _ (Except.ok.inj h)
  · simp at h

theorem step_less {lim : Nat} {o o' : ItemsDifference} (h : o.step lim = (o', .ok true)) : o'.remaining < o.remaining := by
  unfold step at h
  split at h
  · simp at h
  · split at h
    · rename_i d more hd
      simp only [Prod.mk.injEq, Except.ok.injEq] at h
      obtain ⟨rfl, rfl⟩ := h
      exact diffStep_less hd
    · simp at h

/-- More rounds change nothing. -/
theorem rounds_enough (lim : Nat) {n m : Nat} {o : ItemsDifference} (h : o.remaining < n) (h' : o.remaining < m) :
    o.rounds lim n = o.rounds lim m := by
  induction n generalizing o m with
  | zero => omega
  | succ n ih =>
    cases m with
    | zero => omega
    | succ m =>
      simp only [rounds]
      split
      · rename_i o' ho
        have := step_less ho
        exact ih (by omega) (by omega)
      · rfl
      · rfl

theorem rounds_eq_loop (lim n : Nat) {o : ItemsDifference} {d : Diff} (hp : o.prepared = true)
    (h : Diff.loop lim n o.state = .ok d) : o.rounds lim n = (⟨d, true⟩, .ok ()) := by
  induction n generalizing o with
  | zero => cases h
  | succ n ih =>
    simp only [Diff.loop, bind, Except.bind] at h
    simp only [rounds, step, checkPrepared, isNotPrepared, hp]
    cases hs : o.state.step lim with
    | error e => simp [hs] at h
    | ok p =>
      obtain ⟨d', b⟩ := p
      cases b with
      | true =>
        simp only [hs] at h
        exact ih (o := ⟨d', true⟩) rfl h
      | false =>
        simp only [hs, Except.ok.injEq] at h
        subst h
        rfl

end ItemsDifference

open ItemsDifference

/-- C87. `loop` is `while self.step(): pass`, for every object, and runs `step` at most once more than there are items left
to fetch. -/
theorem C87_loop (lim : Nat) (o : ItemsDifference) :
    (o.loop lim = match o.step lim with
      | (o', .ok true) => o'.loop lim
      | (o', .ok false) => (o', .ok ())
      | (o', .error e) => (o', .error e)) ∧
    ∀ n, o.remaining < n → o.rounds lim n = o.loop lim := by
  refine ⟨?_, fun n hn => rounds_enough lim hn (Nat.lt_succ_self _)⟩
  show o.rounds lim (o.remaining + 1) = _
  rw [rounds]
  rcases hs : o.step lim with ⟨o', e | (_ | _)⟩
  · rfl
  · rfl
  · exact rounds_enough lim (step_less hs) (Nat.lt_succ_self _)

example :
    let o := (create [exRange (some [1]) (some [4]), exPoint [6]] [exPoint [2], exRange (some [3]) (some [5])]).prepare.1
    o.remaining = 2 ∧ (o.loop 2).2 = .ok () ∧ (o.rounds 2 1).1.state.result.length = 1 ∧
      (o.loop 2).1.state.result.length = 3 := by
  decide +kernel

/-- C87. In every sequence of calls the object is prepared once: it becomes prepared with the first call of `prepare` or
`compute` and stays so; as long as it is not, `step` and `loop` raise `ValueError`, and from then on `prepare` and `compute`
do; whoever raises so leaves the object as it was. -/
theorem C87_once (lim : Nat) (items others : List Item) (cs : List Call) :
    let o := (create items others).calls lim cs
    (o.prepared = true ↔ Call.prepare ∈ cs ∨ Call.compute ∈ cs) ∧
    (o.prepared = false → o.call lim .step = (o, .error .valueError) ∧ o.call lim .loop = (o, .error .valueError)) ∧
    (o.prepared = true → o.call lim .prepare = (o, .error .valueError) ∧ o.call lim .compute = (o, .error .valueError)) := by
  intro o
  refine ⟨?_, fun h => ?_, fun h => ?_⟩
  · have key : ∀ (cs : List Call) (o : ItemsDifference), (o.calls lim cs).prepared = true ↔
        o.prepared = true ∨ Call.prepare ∈ cs ∨ Call.compute ∈ cs := by
      intro cs
      induction cs with
      | nil => intro o; simp [calls]
      | cons c cs ih =>
        intro o
        have hp : o.prepare.1.prepared = true := by
          unfold prepare checkNotPrepared isPrepared
          cases hh : o.prepared <;> simp [hh]
        have hc : (o.compute lim).1.prepared = true := by
          unfold compute
          split
          · rename_i o' e he; rw [he] at hp; exact hp
          · rename_i o' he
            rw [he] at hp
            have := rounds_prepared lim (o'.remaining + 1) o'
            split <;> rename_i hl <;> (unfold loop at hl; rw [hl] at this; exact this.trans hp)
        simp only [calls]
        rw [ih]
        cases c with
        | prepare => simp [call, hp]
        | step => simp [call, step_prepared]
        | loop => simp [call, loop, rounds_prepared]
        | compute => simp [call, hc]
    have := key cs (create items others)
    exact this.trans (by simp [create])
  · have hs : o.step lim = (o, .error .valueError) := by simp [step, checkPrepared, isNotPrepared, h]
    exact ⟨by simp [call, hs, Except.map], by simp [call, loop, rounds, hs, Except.map]⟩
  · have hs : o.prepare = (o, .error .valueError) := by simp [prepare, checkNotPrepared, isPrepared, h]
    exact ⟨by simp [call, hs, Except.map], by simp [call, compute, hs, Except.map]⟩

example :
    let o := create [exRange (some [1]) (some [4])] [exPoint [2]]
    (o.call 2 .step).2 = .error .valueError ∧ (o.call 2 .prepare).2 = .ok .none ∧
      ((o.calls 2 [.step, .prepare, .step]).call 2 .compute).2 = .error .valueError ∧
      ((o.calls 2 [.step]).call 2 .compute).2 =
        .ok (.items [exRange (some [1]) (some [2]), exRange (some [2]) (some [4]) false false]) := by
  decide +kernel

theorem calls_idle (lim : Nat) {o : ItemsDifference} (h : o.prepared = false) {cs : List Call}
    (hc : ∀ c ∈ cs, c = Call.step ∨ c = Call.loop) : o.calls lim cs = o := by
  have hs : o.step lim = (o, .error .valueError) := by simp [step, checkPrepared, isNotPrepared, h]
  induction cs with
  | nil => rfl
  | cons c cs ih =>
    have hcs := ih (fun c hc' => hc c (by simp [hc']))
    rcases hc c (by simp) with rfl | rfl
    · simp [calls, call, hs, hcs]
    · simp [calls, call, loop, rounds, hs, hcs]

/-- C87. A fresh object made for the items of two sets in normal form, the second of them not empty, computes items in
order, with gaps, that hold exactly the versions of the first set that are not in the second. Calls of `step` and `loop`
before that, which raise, make no difference; and preparing the object by hand, stepping for a while, and calling `loop`
leaves the same result. -/
theorem C87_compute (a b : VSet) (ha : a.Normal) (hb : b.Normal) (hne : b ≠ .empty) :
    ∃ l : List Item, (∀ i ∈ l, i.Normal) ∧ l.Pairwise Item.Before ∧
      (∀ v : Version, (∃ i ∈ l, i.Mem v) ↔ a.Mem v ∧ ¬ b.Mem v) ∧
      ∀ lim,
        (∀ cs, (∀ c ∈ cs, c = Call.step ∨ c = Call.loop) →
          (((create a.extract b.extract).calls lim cs).compute lim).2 = .ok l) ∧
        ∀ o, Stepped lim (create a.extract b.extract).prepare.1 o →
          (o.loop lim).2 = .ok () ∧ (o.loop lim).1.state.result.reverse = l := by
  have hna := ha.allNormal
  have hga := ha.gaps
  have hnb := hb.allNormal
  have hgb := hb.gaps
  have hbl : b.extract ≠ [] := by
    intro h
    refine hne (hb.eq_empty_iff.2 fun c hc => ?_)
    rw [VSet.Cov, h] at hc
    exact (cov_nil c).1 hc
  have hfinish : ∀ l : List Item, AllNormal l → Gaps l → (∀ c, Cov l c ↔ Cov a.extract c ∧ ¬ Cov b.extract c) →
      (∀ lim, ∃ d, (create a.extract b.extract).prepare.1.loop lim = (⟨d, true⟩, .ok ()) ∧ d.result.reverse = l) →
      ∃ l : List Item, (∀ i ∈ l, i.Normal) ∧ l.Pairwise Item.Before ∧
      (∀ v : Version, (∃ i ∈ l, i.Mem v) ↔ a.Mem v ∧ ¬ b.Mem v) ∧
      ∀ lim,
        (∀ cs, (∀ c ∈ cs, c = Call.step ∨ c = Call.loop) →
          (((create a.extract b.extract).calls lim cs).compute lim).2 = .ok l) ∧
        ∀ o, Stepped lim (create a.extract b.extract).prepare.1 o →
          (o.loop lim).2 = .ok () ∧ (o.loop lim).1.state.result.reverse = l := by
    intro l h1 h2 h3 h4
    refine ⟨l, h1, List.Pairwise.imp (fun h => (before_iff _ _).2 h) h2, fun v => ?_, fun lim => ⟨fun cs hcs => ?_, fun o ho => ?_⟩⟩
    · rw [mem_iff_cov, mem_iff_cov, ← h3]
      simp only [Cov, mem_iff_cut]
    · rw [calls_idle lim rfl hcs]
      obtain ⟨d, hd, hr⟩ := h4 lim
      have hp : (create a.extract b.extract).prepare = ((create a.extract b.extract).prepare.1, .ok ()) := rfl
      unfold compute
      rw [hp]
      simp only [hd, hr]
    · obtain ⟨d, hd, hr⟩ := h4 lim
      have : o.loop lim = (⟨d, true⟩, .ok ()) := by
        rw [← hd]
        clear hd
        generalize (create a.extract b.extract).prepare.1 = p at ho
        induction ho with
        | refl => rfl
        | @next p o' _ hs _ ih =>
          rw [ih, (C87_loop lim p).1, hs]
      rw [this]
      exact ⟨rfl, hr⟩
  match hxa : a.extract, hxb : b.extract, hbl with
  | [], oth :: others, _ =>
    rw [hxa, hxb] at hfinish
    refine hfinish [] (by simp [AllNormal]) (by simp [Gaps]) (by simp) (fun lim => ⟨⟨[], others, none, some oth, []⟩, ?_, rfl⟩)
    exact rounds_eq_loop lim _ rfl rfl
  | cur :: items, oth :: others, _ =>
    rw [hxa] at hna hga
    rw [hxb] at hnb hgb
    rw [hxa, hxb] at hfinish
    obtain ⟨out, h1, h2, h3, -, h5⟩ := diffLoop_spec (items.length + others.length + 1) items others cur oth hna hga hnb hgb
      (Nat.lt_succ_self _)
    refine hfinish out h2 h3 h5 (fun lim => ?_)
    obtain ⟨d, hd, hr⟩ := h1 lim []
    refine ⟨d, rounds_eq_loop lim _ rfl hd, by simp [hr]⟩

example :
    let o := create [exRange (some [1]) (some [4]), exPoint [6]] [exPoint [2], exRange (some [3]) (some [5])]
    (o.compute 2).2 = .ok [exRange (some [1]) (some [2]), exRange (some [2]) (some [3]) false false, exPoint [6]] ∧
      ((o.prepare.1.step 2).1.loop 2).1.state.result.reverse =
        [exRange (some [1]) (some [2]), exRange (some [2]) (some [3]) false false, exPoint [6]] := by
  decide +kernel

/-- C87. `False` from `step` must be heeded: the items are exhausted but the current one stays, so one more step takes it
into the result again. -/
theorem C87_again_violation :
    ∃ (a b : VSet) (o o' : ItemsDifference), a.Normal ∧ b.Normal ∧
      o = (create a.extract b.extract).prepare.1 ∧ o.step 2 = (o', .ok false) ∧ o'.state.result = [exPoint [1]] ∧
      (o'.step 2).2 = .ok false ∧ (o'.step 2).1.state.result = [exPoint [1], exPoint [1]] := by
  refine ⟨.item (exPoint [1]), .item (exPoint [2]), _, _, trivial, trivial, rfl, rfl, ?_⟩
  decide +kernel

end Verif
