import Verif.Proofs.Printing
import Verif.Props.Versions
/-!
# Properties of parsing and printing versions
-/

namespace Verif

/-- A version with everything: `1!2.0rc1.rev2.dev3+ab.4`. -/
def exFull : Version :=
  { epoch := ⟨1⟩, release := ⟨[2, 0]⟩, pre := some ⟨"rc".toList, 1⟩, post := some ⟨"rev".toList, 2⟩, dev := some ⟨"dev".toList, 3⟩,
    local_ := some ⟨[.str "ab".toList, .int 4]⟩ }

theorem exFull_canonical : exFull.Canonical := by
  refine ⟨⟨by decide, ?_, ?_, ?_, ?_⟩, by decide, by unfold Release.NonNeg; decide, ?_, ?_, ?_, ?_⟩
  · rintro _ ⟨⟩; decide
  · rintro _ ⟨⟩; decide
  · rintro _ ⟨⟩; decide
  · rintro _ ⟨⟩; decide
  · rintro _ ⟨⟩; decide
  · rintro _ ⟨⟩; decide
  · rintro _ ⟨⟩; decide
  · rintro _ ⟨⟩ p hp
    simp only [List.mem_cons, List.not_mem_nil, or_false] at hp
    rcases hp with rfl | rfl
    · exact ⟨⟨by decide, by decide⟩, by decide⟩
    · show (0 : Int) ≤ 4
      decide

/-! ## C38, C39 -/

/-- Parsing the short string of a version gives back the same version, part by part. -/
theorem C38_short_round_trip (v : Version) (hv : v.Canonical) : Version.parse v.toShortStr = .ok v := parse_short hv

example : exFull.toShortStr = "1!2.0rc1.r2.dev3+ab.4".toList ∧ Version.parse exFull.toShortStr = .ok exFull :=
  ⟨by decide +kernel, C38_short_round_trip _ exFull_canonical⟩

/-- Short strings determine the version. -/
theorem C38_short_injective (v w : Version) (hv : v.Canonical) (hw : w.Canonical) (h : v.toShortStr = w.toShortStr) : v = w := by
  have := parse_short hv
  rw [h, parse_short hw] at this
  cases this
  rfl

example : exFull.toShortStr ≠ ({ exFull with dev := none } : Version).toShortStr := by decide +kernel

/-- Parsing the string of a version without the phase `candidate` gives back the same version, part by part. -/
theorem C39_round_trip (v : Version) (hv : v.Canonical) (hc : ∀ t, v.pre = some t → t.phase ≠ "candidate".toList) :
    Version.parse v.toStr = .ok v := parse_long hv hc

example : exFull.toStr = "1!2.0-rc.1-rev.2-dev.3+ab.4".toList ∧ Version.parse exFull.toStr = .ok exFull :=
  ⟨by decide +kernel, C39_round_trip _ exFull_canonical (by rintro _ ⟨⟩; decide)⟩

/-- With the phase `candidate` it always fails. -/
theorem C39_candidate (v : Version) (hv : v.Canonical) (t : Tag) (ht : v.pre = some t) (hc : t.phase = "candidate".toList) :
    Version.parse v.toStr = .error .parseVersionError := parse_candidate hv ht hc

example : (exVersion [1] (some ⟨"candidate".toList, 2⟩)).Canonical ∧ (exVersion [1] (some ⟨"candidate".toList, 2⟩)).toStr = "1-candidate.2".toList ∧
    Version.parse "1-candidate.2".toList = .error .parseVersionError := by decide +kernel

/-- So the round trip works exactly without that phase. -/
theorem C39_iff (v : Version) (hv : v.Canonical) :
    Version.parse v.toStr = .ok v ↔ ∀ t, v.pre = some t → t.phase ≠ "candidate".toList := by
  refine ⟨fun h t ht hc => ?_, parse_long hv⟩
  rw [parse_candidate hv ht hc] at h
  cases h

example : Version.parse "1.0-candidate.1".toList = .error .parseVersionError ∧
    ({ release := ⟨[1, 0]⟩, pre := some ⟨"candidate".toList, 1⟩ } : Version).toStr = "1.0-candidate.1".toList ∧
    Version.parse "1.0c1".toList = .ok { release := ⟨[1, 0]⟩, pre := some ⟨"candidate".toList, 1⟩ } := by
  decide +kernel

/-! ## C40 -/

/-- Everything parsed has non-negative numbers, allowed phases and well-formed local parts. -/
theorem C40_canonical (s : PyStr) (v : Version) (h : Version.parse s = .ok v) : v.Canonical := parse_canonical h

example : Version.parse "v1.0_A-1".toList = .error .valueError ∧ Version.parse "v01.0_a-1".toList = .ok (exVersion [1, 0] (some ⟨"alpha".toList, 1⟩)) ∧
    (exVersion [1, 0] (some ⟨"alpha".toList, 1⟩)).Canonical := by decide +kernel

/-- And its short string parses to the same version. -/
theorem C40_round_trip (s : PyStr) (v : Version) (h : Version.parse s = .ok v) : Version.parse v.toShortStr = .ok v :=
  parse_short (parse_canonical h)

example : Version.parse "v01.0_a-1".toList = .ok (exVersion [1, 0] (some ⟨"alpha".toList, 1⟩)) ∧
    (exVersion [1, 0] (some ⟨"alpha".toList, 1⟩)).toShortStr = "1.0a1".toList := by decide +kernel

/-- The canonical versions are exactly those that can be parsed. -/
theorem C40_iff (v : Version) : v.Canonical ↔ ∃ s, Version.parse s = .ok v :=
  ⟨fun h => ⟨_, parse_short h⟩, fun ⟨_, h⟩ => parse_canonical h⟩

example : ∃ v, Version.parse "v1!2.0_RC-1-4.Dev+00Ab_0".toList = .error .valueError ∧ Version.parse "v1!02.0_rc-1-4.dev+00Ab_0".toList = .ok v ∧
    v.toShortStr = "1!2.0rc1.post4.dev0+00Ab.0".toList ∧ Version.parse v.toShortStr = .ok v := by
  refine ⟨{ epoch := ⟨1⟩, release := ⟨[2, 0]⟩, pre := some ⟨"rc".toList, 1⟩, post := some ⟨"post".toList, 4⟩, dev := some ⟨"dev".toList, 0⟩,
            local_ := some ⟨[.str "00Ab".toList, .int 0]⟩ }, by decide +kernel, by decide +kernel, by decide +kernel, ?_⟩
  exact C40_round_trip "v1!02.0_rc-1-4.dev+00Ab_0".toList _ (by decide +kernel)

/-! ## C41 -/

/-- A string parses to a version iff it is a spelling of the version: with or without a leading v, with any separators,
short or long phases, omitted zero tag values, and implicit post releases (but see `C41_pre_dash_number`). -/
theorem C41_parse_iff (s : PyStr) (v : Version) :
    Version.parse s = .ok v ↔ ∃ p : Spelling, p.WF ∧ p.Greedy ∧ s = p.text ∧ p.Of v := parse_ok_iff s v

example : ∃ p : Spelling, p.WF ∧ p.Greedy ∧ "v1.0-2".toList = p.text ∧ p.Of (exVersion [1, 0] none (some ⟨"post".toList, 2⟩)) :=
  (C41_parse_iff _ _).1 (by decide +kernel)

/-- So all spellings of a version parse like its canonical spelling. -/
theorem C41_spellings (p : Spelling) (hp : p.WF) (hg : p.Greedy) (v : Version) (h : p.Of v) :
    Version.parse p.text = .ok v ∧ Version.parse p.text = Version.parse v.toShortStr := by
  have h1 := (parse_ok_iff p.text v).2 ⟨p, hp, hg, rfl, h⟩
  exact ⟨h1, by rw [h1, parse_short (canonical_of hp h)]⟩

example : Version.parse "v1.0_rc-01".toList = Version.parse "1.0rc1".toList ∧ Version.parse "1-0".toList = Version.parse "1.post0".toList ∧
    Version.parse "1.0.a".toList = Version.parse "1.0a0".toList := by decide +kernel

/-- A leading v or V changes nothing, not even the error. -/
theorem C41_leading_v (s : PyStr) (c : Char) (hc : c = 'v' ∨ c = 'V') (hs : ∀ r, s ≠ 'v' :: r ∧ s ≠ 'V' :: r) :
    Version.parse (c :: s) = Version.parse s := parse_v hc hs

example : Version.parse "V1.0".toList = Version.parse "1.0".toList ∧ Version.parse "vv1.0".toList = .error .parseVersionError := by decide +kernel

/-- The exception: a number after a dash after a pre phase is the value of the pre tag, not a post release. -/
theorem C41_pre_dash_number (p : Spelling) (hp : p.WF) (t : TagSpelling) (d : PyStr) (ht : p.pre = some t) (hn : t.value = none)
    (hd : p.post = some (.implicit d)) (v : Version) :
    Version.parse p.text = .ok v ↔ ({ p with pre := some { t with value := some (['-'], d) }, post := none } : Spelling).Of v := by
  let q : Spelling := { p with pre := some { t with value := some (['-'], d) }, post := none }
  have e : p.text = q.text := by
    simp [q, Spelling.text, ht, hd, Spelling.optText, TagSpelling.text, TagSpelling.body, TagSpelling.valueText, hn, PostSpelling.text]
  have hq : q.WF := by
    refine ⟨hp.v, hp.epoch, hp.major, hp.release, ?_, ?_, hp.dev, hp.local_⟩
    · rintro _ ⟨⟩
      obtain ⟨h1, h2, -⟩ := hp.pre t ht
      refine ⟨h1, h2, ?_⟩
      rintro _ _ ⟨⟩
      exact ⟨.inr ⟨'-', rfl, by decide⟩, hp.post _ hd⟩
    · rintro _ ⟨⟩
  have gq : q.Greedy := by
    rintro _ _ _ ⟨⟩
  rw [e, parse_text hq gq, meaning_ok hq]

example : ["2.0rc1.post0", "v2.0rc1-0", "2.0-rc.1.post", "2.0_rc_1_post_00", "V2.0rc01post"].map (fun s => Version.parse s.toList)
    = List.replicate 5 (.ok (exVersion [2, 0] (some ⟨"rc".toList, 1⟩) (some ⟨"post".toList, 0⟩))) := by
  decide +kernel
example : Version.parse "1a-1".toList = .ok (exVersion [1] (some ⟨"alpha".toList, 1⟩)) ∧
    Version.parse "1a0-1".toList = .ok (exVersion [1] (some ⟨"alpha".toList, 0⟩) (some ⟨"post".toList, 1⟩)) := by
  decide +kernel

/-! ## C42 -/

/-- `parse_version` fails only with ParseVersionError or a plain ValueError. -/
theorem C42_errors (s : PyStr) :
    (∃ v, Version.parse s = .ok v) ∨ Version.parse s = .error .parseVersionError ∨ Version.parse s = .error .valueError := parse_cases s

example : Version.parse "1.0".toList = .ok (exVersion [1, 0]) ∧ Version.parse "one".toList = .error .parseVersionError ∧
    Version.parse "1.0B1".toList = .error .valueError := by decide +kernel

/-- With ParseVersionError iff the string is not in the grammar. -/
theorem C42_parse_version_error (s : PyStr) :
    Version.parse s = .error .parseVersionError ↔ ¬ ∃ p : Spelling, p.WF ∧ s = p.text := parse_no_spelling s

example : ¬ ∃ p : Spelling, p.WF ∧ "1..0".toList = p.text := (C42_parse_version_error _).1 (by decide +kernel)

/-- With a plain ValueError iff the string is in the grammar, but some phase is not in lower case. -/
theorem C42_value_error (s : PyStr) :
    Version.parse s = .error .valueError ↔ ∃ p : Spelling, p.WF ∧ p.Greedy ∧ s = p.text ∧ ¬ p.LowerCase := parse_value_error s

example : ∃ p : Spelling, p.WF ∧ p.Greedy ∧ "1.0Post1".toList = p.text ∧ ¬ p.LowerCase := (C42_value_error _).1 (by decide +kernel)

/-- So it succeeds iff the string is in the grammar with phases in lower case. -/
theorem C42_success (s : PyStr) :
    (∃ v, Version.parse s = .ok v) ↔ ∃ p : Spelling, p.WF ∧ p.Greedy ∧ s = p.text ∧ p.LowerCase := by
  constructor
  · rintro ⟨v, h⟩
    obtain ⟨p, hp, gp, rfl, -⟩ := (parse_ok_iff s v).1 h
    refine ⟨p, hp, gp, rfl, ?_⟩
    by_contra hl
    rw [(parse_value_error _).2 ⟨p, hp, gp, rfl, hl⟩] at h
    cases h
  · rintro ⟨p, hp, gp, rfl, hl⟩
    rw [parse_text hp gp]
    rcases meaning_cases hp with ⟨-, h⟩ | ⟨h, -⟩
    · exact h
    · exact absurd hl h

example : Version.parse "1.0RC1".toList = .error .valueError ∧ Version.parse "1.0+Ab".toList = .ok (exVersion [1, 0] (l := some ⟨[.str "Ab".toList]⟩)) ∧
    Version.parse "1.0-".toList = .error .parseVersionError ∧ Version.parse "".toList = .error .parseVersionError ∧
    Version.parse "1.0\n".toList = .error .parseVersionError := by
  decide +kernel

end Verif
