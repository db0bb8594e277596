import Verif.Proofs.PatternEscape
/-!
# C105: the compiled patterns

The strings that /repo/versions/patterns.py passes to `re.compile`, read by the syntax of `re` (ignoring case, verbose),
match exactly what the trees of `Verif.Model.Regex` match, with the same groups. The other theorems about parsing start
from those trees.
-/

namespace Verif

open Rx

/-- C105: `TAG`; `fullmatch` makes no difference between the anchors `^`, `$` and none. -/
theorem C105_tag (s : PyStr) : PatternText.fullmatch PatternText.tag s = some (Re.fullmatch Pattern.tag s) := by
  rw [PatternText.fullmatch, parse_tag, Option.map_some, tag_fullmatch]

example : PatternText.fullmatch PatternText.tag "RC.1".toList = some (some [(.value, "1".toList), (.phase, "RC".toList)]) ∧
    PatternText.fullmatch PatternText.tag "rc.".toList = some none ∧
    PatternText.fullmatch PatternText.tag "rc\n".toList = some none := by
  simp only [C105_tag]
  decide +kernel

/-- C105: `PUBLIC_VERSION` and `VERSION`. -/
theorem C105_version (s : PyStr) :
    PatternText.fullmatch PatternText.publicVersion s = some (Re.fullmatch Pattern.publicVersion s) ∧
    PatternText.fullmatch PatternText.version s = some (Re.fullmatch Pattern.version s) := by
  rw [PatternText.fullmatch, parse_publicVersion, PatternText.fullmatch, parse_version, Option.map_some, Option.map_some,
    Sim.publicVersion.fullmatch, Sim.version.fullmatch]
  exact ⟨rfl, rfl⟩

example : PatternText.fullmatch PatternText.version "v1!2.3-4+Build.5".toList = some (some [(.local_, "Build.5".toList),
      (.postImplicit, "4".toList), (.release, "2.3".toList), (.epoch, "1".toList)]) ∧
    PatternText.fullmatch PatternText.publicVersion "1.0+build".toList = some none := by
  rw [(C105_version _).1, (C105_version _).2]
  decide +kernel

/-- C105: `WILDCARD_VERSION`. -/
theorem C105_wildcard (s : PyStr) :
    PatternText.fullmatch PatternText.wildcardVersion s = some (Re.fullmatch Pattern.wildcardVersion s) := by
  rw [PatternText.fullmatch, parse_wildcardVersion, Option.map_some, Sim.wildcardVersion.fullmatch]

example : PatternText.fullmatch PatternText.wildcardVersion "1.0-X".toList = some (some []) ∧
    PatternText.fullmatch PatternText.wildcardVersion "1.x.0".toList = some none := by
  rw [C105_wildcard, C105_wildcard]
  decide +kernel

/-- C105: the patterns of specifications. -/
theorem C105_specification (s : PyStr) :
    PatternText.fullmatch PatternText.wildcardSpecification s = some (Re.fullmatch Pattern.wildcardSpecification s) ∧
    PatternText.fullmatch PatternText.orderSpecification s = some (Re.fullmatch Pattern.orderSpecification s) ∧
    PatternText.fullmatch PatternText.caretSpecification s = some (Re.fullmatch Pattern.caretSpecification s) ∧
    PatternText.fullmatch PatternText.tildeSpecification s = some (Re.fullmatch Pattern.tildeSpecification s) ∧
    PatternText.fullmatch PatternText.equalSpecification s = some (Re.fullmatch Pattern.equalSpecification s) := by
  have hw : Sim (Rx.seqs [.opt (.operators ["==", "=", "!="]), .group .version wildcardTree]) Pattern.wildcardSpecification :=
    Sim.two (Sim.operators (by decide) (by decide)).opt (Sim.group _ Sim.wildcardVersion)
  have ho : Sim (Rx.seqs [.operators ["<=", ">=", "<", ">"], .group .version publicTree]) Pattern.orderSpecification :=
    Sim.two (Sim.operators (by decide) (by decide)) (Sim.group _ Sim.publicVersion)
  have hc : Sim (Rx.seqs [.operators ["^"], .group .version publicTree]) Pattern.caretSpecification :=
    Sim.two (Sim.operators (by decide) (by decide)) (Sim.group _ Sim.publicVersion)
  have ht : Sim (Rx.seqs [.operators ["~=", "~"], .group .version publicTree]) Pattern.tildeSpecification :=
    Sim.two (Sim.operators (by decide) (by decide)) (Sim.group _ Sim.publicVersion)
  have he : Sim (Rx.seqs [.opt (.operators ["==", "=", "!="]), .group .version versionTree]) Pattern.equalSpecification :=
    Sim.two (Sim.operators (by decide) (by decide)).opt (Sim.group _ Sim.version)
  simp only [PatternText.fullmatch, parse_wildcardSpecification, parse_orderSpecification, parse_caretSpecification,
    parse_tildeSpecification, parse_equalSpecification, Option.map_some, hw.fullmatch, ho.fullmatch, hc.fullmatch,
    ht.fullmatch, he.fullmatch, and_self]

example : PatternText.fullmatch PatternText.tildeSpecification "~=1.0".toList =
      some (some [(.version, "1.0".toList), (.release, "1.0".toList), (.operator, "~=".toList)]) ∧
    PatternText.fullmatch PatternText.orderSpecification "=>1.0".toList = some none := by
  rw [(C105_specification _).2.2.2.1, (C105_specification _).2.1]
  decide +kernel

/-- C105: alternatives of escaped strings without letters match exactly these strings, and capture nothing. -/
theorem C105_union (l : List PyStr) (hl : l ≠ []) (h : ∀ s ∈ l, ∀ c ∈ s, Caseless c) (t : PyStr) :
    PatternText.fullmatch (PatternText.union (l.map PatternText.escape)) t = some (if t ∈ l then some [] else none) := by
  rw [PatternText.fullmatch, parse_union l hl, Option.map_some]
  congr 1
  have hm : ∀ st, st ∈ (Rx.alts (l.map fun s => Rx.seqs (s.map literal))).run t.length (t, []) ↔
      ∃ s ∈ l, t = s ++ st.1 ∧ st.2 = [] := by
    intro st
    rw [run_alts _ (by simpa using hl), List.mem_flatMap]
    simp only [List.mem_map, exists_exists_and_eq_and]
    exact ⟨fun ⟨s, hs, hst⟩ => ⟨s, hs, (run_literals _ s (h s hs) _ _ _).1 hst⟩,
      fun ⟨s, hs, hst⟩ => ⟨s, hs, (run_literals _ s (h s hs) _ _ _).2 hst⟩⟩
  refine fullmatch_plain _ _ _ (fun st hst => ?_) ?_
  · obtain ⟨s, -, -, e⟩ := (hm st).1 hst
    exact e
  · rw [hm]
    simp

example : PatternText.fullmatch (PatternText.union (["~=".toList, "**".toList, ".".toList].map PatternText.escape)) "**".toList =
    some (some []) := by
  rw [C105_union _ (by decide) (by decide)]
  decide

/-- C105: an escaped string without letters in brackets matches exactly its characters. -/
theorem C105_set (s : PyStr) (hs : s ≠ []) (h : ∀ c ∈ s, Caseless c) (t : PyStr) :
    PatternText.fullmatch (PatternText.set (PatternText.escape s)) t = some (if ∃ c ∈ s, t = [c] then some [] else none) := by
  rw [PatternText.fullmatch, parse_set s hs, Option.map_some]
  congr 1
  have hm : ∀ st, st ∈ (Rx.cls (s.map fun c => (c, c))).run t.length (t, []) ↔ ∃ c ∈ s, t = c :: st.1 ∧ st.2 = [] := by
    intro st
    rw [Rx.run]
    cases t with
    | nil => simp
    | cons d t =>
      have hd : classHas (s.map fun c => (c, c)) d = true ↔ d ∈ s := by
        rw [classHas_plain (by simpa using fun c hc => (caseless_iff c).1 (h c hc))]
        simp only [List.mem_map, exists_exists_and_eq_and]
        exact ⟨fun ⟨c, hc, h1, h2⟩ => Char.le_antisymm h2 h1 ▸ hc, fun hd => ⟨d, hd, Char.le_refl _, Char.le_refl _⟩⟩
      simp only [hd]
      by_cases hds : d ∈ s
      · rw [if_pos hds, List.mem_singleton]
        constructor
        · rintro rfl; exact ⟨d, hds, rfl, rfl⟩
        · rintro ⟨c, -, e, e'⟩
          cases e
          exact Prod.ext rfl e'
      · rw [if_neg hds]
        simp only [List.not_mem_nil, false_iff]
        rintro ⟨c, hc, e, -⟩
        cases e
        exact hds hc
  refine fullmatch_plain _ _ _ (fun st hst => ?_) ?_
  · obtain ⟨c, -, -, e⟩ := (hm st).1 hst
    exact e
  · rw [hm]
    simp

example : PatternText.fullmatch (PatternText.set (PatternText.escape "^.-]".toList)) "]".toList = some (some []) ∧
    PatternText.fullmatch (PatternText.set (PatternText.escape "^.-]".toList)) "/".toList = some none := by
  rw [C105_set _ (by decide) (by decide), C105_set _ (by decide) (by decide)]
  decide

end Verif
