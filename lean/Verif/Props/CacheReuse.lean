import Verif.Proofs.CacheReuse
import Verif.Proofs.CacheExceptions
import Verif.Props.SubclassCaches
/-!
# C109: what the caches have once given, they give again

C36 and C37 are about caches that give the right results. These hold for all specifiers and sets, also for those where an earlier
call for an equal key decides the result (C36_violation).
-/

namespace Verif

section
variable (H : Hasher) (lim : Nat)

/-- C109. If converting `s` returns `x` after some calls, then after any further calls converting a specifier equal to `s`, with
the same hash, returns the same `x`, and leaves the cache as it is. -/
theorem C109_specifiers (before later : List Specifier) (s t : Specifier) (hh : H.specifier s = H.specifier t) (he : s.eq t = true) (x : VSet)
    (h : (s.toSetCached H lim (Specifier.toSetHistory H lim before)).1 = .ok x) :
    t.toSetCached H lim (Specifier.toSetHistory H lim (before ++ s :: later)) =
      (.ok x, Specifier.toSetHistory H lim (before ++ s :: later)) :=
  (toSet_function H lim).again before later s t hh he x h

/-- `~=1.0`, then `~=1.0.0`, then both again, with any equal hashes: always the set of the first call. -/
example (x : VSet) (later : List Specifier)
    (h : ((Specifier.one ⟨.tildeEqual, exVersion [1, 0]⟩).toSetCached flatHasher lim (Specifier.toSetHistory flatHasher lim [])).1 = .ok x) :
    ((Specifier.one ⟨.tildeEqual, exVersion [1, 0, 0]⟩).toSetCached flatHasher lim
      (Specifier.toSetHistory flatHasher lim ([] ++ .one ⟨.tildeEqual, exVersion [1, 0]⟩ :: later))).1 = .ok x := by
  rw [C109_specifiers flatHasher lim [] later (.one ⟨.tildeEqual, exVersion [1, 0]⟩)
    (.one ⟨.tildeEqual, exVersion [1, 0, 0]⟩) rfl (by decide +kernel) x h]

example : ((Specifier.one ⟨.tildeEqual, exVersion [1, 0]⟩).toSetCached flatHasher 5 (Specifier.toSetHistory flatHasher 5 [])).1 =
    .ok (.item (exRange (some [1, 0]) (some [2, 0]))) := by decide +kernel

/-- C109. The same for converting sets to specifiers. -/
theorem C109_sets (before later : List VSet) (s t : VSet) (hh : H.vset s = H.vset t) (he : s.eq t = true) (x : Specifier)
    (h : (Specifier.fromSetCached H lim s (Specifier.fromSetHistory H lim before)).1 = .ok x) :
    Specifier.fromSetCached H lim t (Specifier.fromSetHistory H lim (before ++ s :: later)) =
      (.ok x, Specifier.fromSetHistory H lim (before ++ s :: later)) :=
  (fromSet_function H lim).again before later s t hh he x h

/-- `[1, 2)`, then any sets, then `[1.0, 2)`: the specifier is still written with `1`. -/
example (later : List VSet) :
    (Specifier.fromSetCached flatHasher lim (.item (exRange (some [1, 0]) (some [2])))
      (Specifier.fromSetHistory flatHasher lim ([] ++ .item (exRange (some [1]) (some [2])) :: later))).1 =
        .ok (.all [.one ⟨.greaterOrEqual, exVersion [1]⟩, .one ⟨.less, exVersion [2]⟩]) := by
  rw [C109_sets flatHasher lim [] later (.item (exRange (some [1]) (some [2])))
    (.item (exRange (some [1, 0]) (some [2]))) rfl (by decide +kernel) _ rfl]
  rfl

/-- Operators the constructor accepts, except `=` and `=*`, which are equal to `==` and `==*` but hashed differently. -/
def LongOperator (o : Operator) : Prop := o.Valid ∧ o.type ≠ .equal ∧ o.type ≠ .wildcardEqual

theorem long_noShort {s : Specifier} (h : s.Over LongOperator) : s.NoShort := by
  induction h with
  | never => exact .never
  | always => exact .always
  | one h => exact .one h.2.1 h.2.2
  | any _ _ ih => exact .any ih
  | all _ _ ih => exact .all ih

theorem closed_history {Q : Operator → Prop} {l : List Specifier} (hl : ∀ s ∈ l, s.Over Q) : ∀ {c : Cache Specifier VSet},
    Specifier.Closed H lim Q c → Specifier.Closed H lim Q ((l.map (Specifier.toSetCached H lim)).foldl (fun c m => (m c).2) c) := by
  induction l with
  | nil => exact fun h => h
  | cons s l ih => exact fun hc => ih (fun t ht => hl t (List.mem_cons_of_mem _ ht)) (Specifier.toSet_closed (hl s List.mem_cons_self) _ hc).1

/-- C109. Exceptions are not cached, but they come again: if converting `s` raises `e` after some calls, then it raises `e` after
any further calls. -/
theorem C109_exceptions (before later : List Specifier) (hb : ∀ t ∈ before, t.Over LongOperator) (hl : ∀ t ∈ later, t.Over LongOperator)
    (s : Specifier) (hs : s.Over LongOperator) (e : PyErr)
    (h : (s.toSetCached H lim (Specifier.toSetHistory H lim before)).1 = .error e) :
    (s.toSetCached H lim (Specifier.toSetHistory H lim (before ++ s :: later))).1 = .error e := by
  have hc : Specifier.Closed H lim LongOperator (Specifier.toSetHistory H lim (before ++ s :: later)) := by
    refine closed_history H lim (fun t ht => ?_) (fun e he => by cases he)
    rcases List.mem_append.1 ht with ht | ht
    · exact hb t ht
    · rcases List.mem_cons.1 ht with rfl | ht
      · exact hs
      · exact hl t ht
  refine (Specifier.toSet_fails (fun s t hs ht he => C05_specifiers H s t (long_noShort hs) (long_noShort ht) he) (fun o ho => ho.1) hs _ _ e h
    (fun k x hk => ?_) hc).2
  unfold Specifier.toSetHistory Cached.after
  rw [List.map_append, List.foldl_append, List.map_cons, List.foldl_cons]
  refine stable_foldl (fun m hm => ?_) hk
  obtain ⟨d, -, rfl⟩ := List.mem_map.1 hm
  exact toSet_stable H lim d

/-- `==1||>1` raises, and raises after `==1.0`, `>1.0` and `==1.0||>1.0`. -/
example : ((Specifier.any [.one ⟨.doubleEqual, exVersion [1]⟩, .one ⟨.greater, exVersion [1]⟩]).toSetCached flatHasher 5
      (Specifier.toSetHistory flatHasher 5 ([] ++ .any [.one ⟨.doubleEqual, exVersion [1]⟩, .one ⟨.greater, exVersion [1]⟩] ::
        [.one ⟨.doubleEqual, exVersion [1, 0]⟩, .any [.one ⟨.doubleEqual, exVersion [1, 0]⟩, .one ⟨.greater, exVersion [1, 0]⟩]]))).1 =
    .error .recursionError := by
  have ho : ∀ t v, (t = .doubleEqual ∨ t = .greater) → (v = exVersion [1] ∨ v = exVersion [1, 0]) → LongOperator ⟨t, v⟩ := by
    rintro t v (rfl | rfl) (rfl | rfl) <;> exact ⟨by decide +kernel, by decide, by decide⟩
  have ha : ∀ v, (v = exVersion [1] ∨ v = exVersion [1, 0]) →
      (Specifier.any [.one ⟨.doubleEqual, v⟩, .one ⟨.greater, v⟩]).Over LongOperator := fun v hv =>
    .any (by simp) (by
      simp only [List.mem_cons, List.not_mem_nil, or_false, forall_eq_or_imp, forall_eq]
      exact ⟨.one (ho _ _ (.inl rfl) hv), .one (ho _ _ (.inr rfl) hv)⟩)
  refine C109_exceptions flatHasher 5 [] _ (by simp) ?_ _ (ha _ (.inl rfl)) _ ?_
  · simp only [List.mem_cons, List.not_mem_nil, or_false, forall_eq_or_imp, forall_eq]
    exact ⟨.one (ho _ _ (.inl rfl) (.inr rfl)), ha _ (.inr rfl)⟩
  · decide +kernel

/-- A call, made through the converter and its cache alone: `parse_version_set` without a cache of its own. -/
def SetCall.direct : SetCall → Cached Specifier VSet VSet
  | parse s => (Cached.pure (Specifier.parse s)).andThen (Specifier.toSetCached H lim)
  | convert t => t.toSetCached H lim

theorem parseVersionSet_eq (hash : PyStr → Int) (s : PyStr) (c : SetCaches) :
    parseVersionSet hash H lim s c =
      let r := frontCall hash Specifier.parse (Specifier.toSetCached H lim) s (c.parsed, c.converted)
      (r.1, ⟨r.2.1, r.2.2⟩) := by
  unfold parseVersionSet frontCall convertCall
  simp only
  cases c.parsed.find? _ with
  | some e => rfl
  | none =>
    simp only
    cases Specifier.parse s with
    | error e => rfl
    | ok t =>
      simp only
      cases Specifier.toSetCached H lim t c.converted with
      | mk r c' => cases r <;> rfl

theorem setCall_spec (hash : PyStr → Int) (call : SetCall) (c : SetCaches)
    (hc : Backed H.specifier Specifier.eq Specifier.parse c.parsed c.converted) :
    (call.run hash H lim c).1 = (call.direct H lim c.converted).1 ∧ (call.run hash H lim c).2.converted = (call.direct H lim c.converted).2 ∧
      Backed H.specifier Specifier.eq Specifier.parse (call.run hash H lim c).2.parsed (call.run hash H lim c).2.converted := by
  cases call with
  | parse s =>
    simp only [SetCall.run, parseVersionSet_eq]
    exact frontCall_spec (toSet_function H lim) hash Specifier.parse s (c.parsed, c.converted) hc
  | convert t => exact ⟨rfl, rfl, hc.stable (toSet_stable H lim t)⟩

theorem setHistory_spec (hash : PyStr → Int) (calls : List SetCall) : ∀ c : SetCaches,
    Backed H.specifier Specifier.eq Specifier.parse c.parsed c.converted →
    (calls.foldl (fun c call => (call.run hash H lim c).2) c).converted =
      (calls.map (SetCall.direct H lim)).foldl (fun c m => (m c).2) c.converted ∧
    Backed H.specifier Specifier.eq Specifier.parse (calls.foldl (fun c call => (call.run hash H lim c).2) c).parsed
      (calls.foldl (fun c call => (call.run hash H lim c).2) c).converted := by
  induction calls with
  | nil => exact fun c hc => ⟨rfl, hc⟩
  | cons a l ih =>
    intro c hc
    obtain ⟨-, h2, h3⟩ := setCall_spec H lim hash a c hc
    obtain ⟨i1, i2⟩ := ih _ h3
    exact ⟨by simp only [List.foldl_cons, List.map_cons]; rw [i1, h2], i2⟩

/-- C109. The cache of `parse_version_set` cannot be noticed: every call gives exactly what the parser and
`specifier_to_version_set` with its cache give, if `parse_version_set` had no cache. -/
theorem C109_parse_version_set (hash : PyStr → Int) (calls : List SetCall) (call : SetCall) :
    (call.run hash H lim (setHistory hash H lim calls)).1 =
      (call.direct H lim (Cached.after (calls.map (SetCall.direct H lim)))).1 := by
  obtain ⟨h1, h2⟩ := setHistory_spec H lim hash calls {} (fun e he => by cases he)
  exact (setCall_spec H lim hash call _ h2).1.trans (by rw [h1]; rfl)

/-- After converting `~=1.0`, parsing `~=1.0.0` twice and converting more. -/
example :
    ((SetCall.parse "~=1.0.0".toList).run (fun _ => 0) flatHasher 5
      (setHistory (fun _ => 0) flatHasher 5 [.convert (.one ⟨.tildeEqual, exVersion [1, 0]⟩), .parse "~=1.0.0".toList])).1 =
        .ok (.item (exRange (some [1, 0]) (some [2, 0]))) := by
  rw [C109_parse_version_set]
  decide +kernel

end

section
variable (hash : PyStr × Option Nat → Int) (hashS : TSpecifier → Int) (S : ItemSort) (lim base : Nat)

/-- What the arguments of `parse_version_set` are read as. -/
def readKey (key : PyStr × Option Nat) : Except PyErr TSpecifier := (Specifier.parse key.1).map (·.ofClass (key.2.getD base))

/-- A call, made through the converter and its cache alone. -/
def TSetCall.direct : TSetCall → Cached TSpecifier TSet TSet
  | parse key => (Cached.pure (readKey base key)).andThen (TSpecifier.toSetCached hashS S lim)
  | convert t => t.toSetCached hashS S lim

theorem parseVersionSetT_eq (key : PyStr × Option Nat) (c : TSetCaches) :
    parseVersionSetT hash hashS S lim base key c =
      let r := frontCall hash (readKey base) (TSpecifier.toSetCached hashS S lim) key (c.parsed, c.converted)
      (r.1, ⟨r.2.1, r.2.2⟩) := by
  unfold parseVersionSetT frontCall convertCallT readKey
  simp only
  cases c.parsed.find? _ with
  | some e => rfl
  | none =>
    simp only
    cases Specifier.parse key.1 with
    | error e => rfl
    | ok t =>
      simp only [Except.map]
      cases TSpecifier.toSetCached hashS S lim (t.ofClass (key.2.getD base)) c.converted with
      | mk r c' => cases r <;> rfl

theorem setCallT_spec (call : TSetCall) (c : TSetCaches) (hc : Backed hashS TSpecifier.eq (readKey base) c.parsed c.converted) :
    (call.run hash hashS S lim base c).1 = (call.direct hashS S lim base c.converted).1 ∧
      (call.run hash hashS S lim base c).2.converted = (call.direct hashS S lim base c.converted).2 ∧
      Backed hashS TSpecifier.eq (readKey base) (call.run hash hashS S lim base c).2.parsed (call.run hash hashS S lim base c).2.converted := by
  cases call with
  | parse s =>
    simp only [TSetCall.run, parseVersionSetT_eq]
    exact frontCall_spec (toSetT_function hashS S lim) hash (readKey base) s (c.parsed, c.converted) hc
  | convert t => exact ⟨rfl, rfl, hc.stable (toSetT_stable hashS S lim t)⟩

theorem setHistoryT_spec (calls : List TSetCall) : ∀ c : TSetCaches,
    Backed hashS TSpecifier.eq (readKey base) c.parsed c.converted →
    (calls.foldl (fun c call => (call.run hash hashS S lim base c).2) c).converted =
      (calls.map (TSetCall.direct hashS S lim base)).foldl (fun c m => (m c).2) c.converted ∧
    Backed hashS TSpecifier.eq (readKey base) (calls.foldl (fun c call => (call.run hash hashS S lim base c).2) c).parsed
      (calls.foldl (fun c call => (call.run hash hashS S lim base c).2) c).converted := by
  induction calls with
  | nil => exact fun c hc => ⟨rfl, hc⟩
  | cons a l ih =>
    intro c hc
    obtain ⟨-, h2, h3⟩ := setCallT_spec hash hashS S lim base a c hc
    obtain ⟨i1, i2⟩ := ih _ h3
    exact ⟨by simp only [List.foldl_cons, List.map_cons]; rw [i1, h2], i2⟩

theorem versionSetT_direct (calls : List TSetCall) (call : TSetCall) :
    (call.run hash hashS S lim base (setHistoryT hash hashS S lim base calls)).1 =
      (call.direct hashS S lim base (Cached.after (calls.map (TSetCall.direct hashS S lim base)))).1 := by
  obtain ⟨h1, h2⟩ := setHistoryT_spec hash hashS S lim base calls {} (fun e he => by cases he)
  exact (setCallT_spec hash hashS S lim base call _ h2).1.trans (by rw [h1]; rfl)

/-- The call with the versions of a class: `none` is the default. -/
def SetCall.inClass (t : Option Nat) : SetCall → TSetCall
  | parse s => .parse (s, t)
  | convert x => .convert (x.ofClass (t.getD base))

/-- The specifier that is converted. -/
def SetCall.specifier : SetCall → Option Specifier
  | parse s => (Specifier.parse s).toOption
  | convert x => some x

theorem direct_history (H : Hasher) (calls : List SetCall) : ∀ c,
    (calls.map (SetCall.direct H lim)).foldl (fun c m => (m c).2) c =
      ((calls.filterMap SetCall.specifier).map (Specifier.toSetCached H lim)).foldl (fun c m => (m c).2) c := by
  induction calls with
  | nil => exact fun _ => rfl
  | cons a l ih =>
    intro c
    simp only [List.map_cons, List.foldl_cons, ih]
    cases a with
    | convert x => rfl
    | parse s =>
      simp only [List.filterMap_cons, SetCall.specifier, SetCall.direct, Cached.andThen, Cached.pure]
      cases Specifier.parse s <;> rfl

theorem direct_historyT (history : List (Option Nat × SetCall)) : ∀ c,
    ((history.map (fun r => r.2.inClass base r.1)).map (TSetCall.direct hashS S lim base)).foldl (fun c m => (m c).2) c =
      (((history.filterMap (fun r => r.2.specifier.map (r.1.getD base, ·))).map (fun r => r.2.ofClass r.1)).map
        (TSpecifier.toSetCached hashS S lim)).foldl (fun c m => (m c).2) c := by
  induction history with
  | nil => exact fun _ => rfl
  | cons a l ih =>
    intro c
    obtain ⟨t, a⟩ := a
    simp only [List.map_cons, List.foldl_cons, ih]
    cases a with
    | convert x => rfl
    | parse s =>
      simp only [List.filterMap_cons, SetCall.specifier, SetCall.inClass, TSetCall.direct, readKey, Cached.andThen, Cached.pure]
      cases Specifier.parse s <;> rfl

theorem class_filter (c : Nat) (history : List (Option Nat × SetCall)) :
    ((history.filterMap (fun r => r.2.specifier.map (r.1.getD base, ·))).filter (fun r => r.1 = c)).map (·.2) =
      ((history.filter (fun r => r.1.getD base = c)).map (·.2)).filterMap SetCall.specifier := by
  induction history with
  | nil => rfl
  | cons a l ih =>
    obtain ⟨t, a⟩ := a
    by_cases h : t.getD base = c <;> cases hs : a.specifier <;> simp [h, hs, ih]

/-- C109. `parse_version_set` with any `version_type`, after any calls of it and of `specifier_to_version_set` with specifiers of
any classes, gives what the one-class functions with their caches give after the calls for this class alone. Passing
`Version` and leaving `version_type` out are different keys, but give the same. -/
theorem C109_classes (H : Hasher) (t : Option Nat) (hh : ∀ s : Specifier, hashS (s.ofClass (t.getD base)) = H.specifier s)
    (hash' : PyStr → Int) (history : List (Option Nat × SetCall)) (call : SetCall) :
    ((call.inClass base t).run hash hashS S lim base
      (setHistoryT hash hashS S lim base (history.map (fun r => r.2.inClass base r.1)))).1 =
    (call.run hash' H lim
      (setHistory hash' H lim ((history.filter (fun r => r.1.getD base = t.getD base)).map (·.2)))).1.map (·.ofClass (t.getD base)) := by
  rw [versionSetT_direct, C109_parse_version_set]
  have key := fun s => C107_specifiers S lim hashS H (t.getD base) hh
    (history.filterMap (fun r => r.2.specifier.map (r.1.getD base, ·))) s
  rw [class_filter] at key
  have e1 := direct_historyT hashS S lim base history []
  have e2 := direct_history lim H ((history.filter (fun r => r.1.getD base = t.getD base)).map (·.2)) []
  unfold TSpecifier.toSetHistory Specifier.toSetHistory Cached.after at key
  unfold Cached.after
  rw [e1, e2]
  cases call with
  | convert x => exact key x
  | parse s =>
    simp only [SetCall.inClass, TSetCall.direct, SetCall.direct, readKey, Cached.andThen, Cached.pure]
    cases Specifier.parse s with
    | error e => rfl
    | ok x =>
      exact key x

/-- After `~=1.0` for the class 1, `~=1.0.0` for the class 0 gives its own set; then also without `version_type`. -/
example : ((TSetCall.parse ("~=1.0.0".toList, none)).run (fun _ => 0) (fun _ => 0) .insertion 5 0
      (setHistoryT (fun _ => 0) (fun _ => 0) .insertion 5 0
        [.convert ((Specifier.one ⟨.tildeEqual, exVersion [1, 0]⟩).ofClass 1), .parse ("~=1.0.0".toList, some 0)])).1 =
    .ok ((VSet.item (exRange (some [1, 0, 0]) (some [1, 1, 0]))).ofClass 0) :=
  (C109_classes (fun _ => 0) (fun _ => 0) .insertion 5 0 flatHasher none (flatHasher_specifier 0) (fun _ => 0)
    [(some 1, .convert (.one ⟨.tildeEqual, exVersion [1, 0]⟩)), (some 0, .parse "~=1.0.0".toList)] (.parse "~=1.0.0".toList)).trans
    (by decide +kernel)

end

end Verif
