import Verif.Proofs.Release
/-!
# Lemmas on versions
-/
set_option linter.unusedSimpArgs false

namespace Verif

theorem vlt_iff (a b : Version) : PyCmp.lt a b = true ↔ a.key < b.key := CmpKey.version.lt a b
theorem vle_iff (a b : Version) : PyCmp.le a b = true ↔ a.key ≤ b.key := CmpKey.version.le a b
theorem vgt_iff (a b : Version) : PyCmp.gt a b = true ↔ b.key < a.key := CmpKey.version.gt a b
theorem vge_iff (a b : Version) : PyCmp.ge a b = true ↔ b.key ≤ a.key := CmpKey.version.ge a b
theorem veq_iff (a b : Version) : PyCmp.eq a b = true ↔ a.key = b.key := CmpKey.version.eq a b

theorem vlt_eq (a b : Version) : PyCmp.lt a b = decide (a.key < b.key) := by
  rw [Bool.eq_iff_iff, vlt_iff, decide_eq_true_iff]
theorem vle_eq (a b : Version) : PyCmp.le a b = decide (a.key ≤ b.key) := by
  rw [Bool.eq_iff_iff, vle_iff, decide_eq_true_iff]
theorem vgt_eq (a b : Version) : PyCmp.gt a b = decide (b.key < a.key) := by
  rw [Bool.eq_iff_iff, vgt_iff, decide_eq_true_iff]
theorem vge_eq (a b : Version) : PyCmp.ge a b = decide (b.key ≤ a.key) := by
  rw [Bool.eq_iff_iff, vge_iff, decide_eq_true_iff]
theorem veq_eq (a b : Version) : PyCmp.eq a b = decide (a.key = b.key) := by
  rw [Bool.eq_iff_iff, veq_iff, decide_eq_true_iff]

theorem strKey_injective {s t : PyStr} (h : strKey s = strKey t) : s = t := by
  unfold strKey at h
  exact List.map_injective_iff.2 (fun a b hab => Char.toNat_inj.1 hab) h

theorem tagKey_injective {s t : Tag} (h : s.key = t.key) : s = t := by
  obtain ⟨p, n⟩ := s
  obtain ⟨q, m⟩ := t
  simp only [Tag.key, EmbeddingLike.apply_eq_iff_eq, Prod.mk.injEq] at h
  rw [strKey_injective h.1, h.2]

theorem localPartKey_injective {s t : LocalPart} (h : localPartKey s = localPartKey t) : s = t := by
  cases s <;> cases t <;>
    simp [localPartKey, Local.comparePart, extKey] at h
  · rw [h]
  · rw [strKey_injective h]

theorem localKey_injective {s t : Local} (h : s.key = t.key) : s = t := by
  obtain ⟨s⟩ := s
  obtain ⟨t⟩ := t
  simp only [Local.key] at h
  rw [List.map_injective_iff.2 (fun a b hab => localPartKey_injective hab) h]

theorem extKey_injective {α K : Type} {key : α → K} (hk : ∀ a b, key a = key b → a = b) {s t : Ext α}
    (h : extKey key s = extKey key t) : s = t := by
  cases s with
  | negInf => cases t with
    | negInf => rfl
    | fin b => simp [extKey] at h
    | posInf => exact absurd h (by unfold extKey; exact WithBot.bot_ne_coe)
  | fin a => cases t with
    | negInf => simp [extKey] at h
    | fin b =>
      have : key a = key b := by simpa [extKey] using h
      rw [hk _ _ this]
    | posInf => exact absurd (WithBot.coe_injective h) (WithTop.coe_ne_top)
  | posInf => cases t with
    | negInf => exact absurd h (by unfold extKey; exact WithBot.coe_ne_bot)
    | fin b => exact absurd (WithBot.coe_injective h) (WithTop.top_ne_coe)
    | posInf => rfl

theorem key_eq_iff (a b : Version) :
    a.key = b.key ↔ a.epoch.value = b.epoch.value ∧ a.release.compareParts = b.release.compareParts ∧
      a.pre = b.pre ∧ a.post = b.post ∧ a.dev = b.dev ∧ a.local_ = b.local_ := by
  constructor
  · intro h
    simp only [Version.key, EmbeddingLike.apply_eq_iff_eq, Prod.mk.injEq] at h
    obtain ⟨h1, h2, h3, h4, h5, h6⟩ := h
    have h3 := extKey_injective (fun _ _ => tagKey_injective) h3
    have h4 := extKey_injective (fun _ _ => tagKey_injective) h4
    have h5 := extKey_injective (fun _ _ => tagKey_injective) h5
    have h6 := extKey_injective (fun _ _ => localKey_injective) h6
    have hpost : a.post = b.post := by
      cases ha : a.post <;> cases hb : b.post <;> simp_all [Version.comparePost]
    have hdev : a.dev = b.dev := by
      cases ha : a.dev <;> cases hb : b.dev <;> simp_all [Version.compareDev]
    have hloc : a.local_ = b.local_ := by
      cases ha : a.local_ <;> cases hb : b.local_ <;> simp_all [Version.compareLocal]
    refine ⟨h1, h2, ?_, hpost, hdev, hloc⟩
    rw [hpost, hdev] at h3
    cases ha : a.pre <;> cases hb : b.pre <;> simp_all [Version.comparePre]
    · split at h3 <;> simp at h3
    · split at h3 <;> simp at h3
  · rintro ⟨h1, h2, h3, h4, h5, h6⟩
    simp only [Version.key, h1, h2, h3, h4, h5, h6]

theorem key_lt_iff (a b : Version) :
    a.key < b.key ↔ a.epoch.value < b.epoch.value ∨ a.epoch.value = b.epoch.value ∧
      (a.release.compareParts < b.release.compareParts ∨ a.release.compareParts = b.release.compareParts ∧
      (extKey Tag.key (Version.comparePre a.pre a.post a.dev) < extKey Tag.key (Version.comparePre b.pre b.post b.dev) ∨
        extKey Tag.key (Version.comparePre a.pre a.post a.dev) = extKey Tag.key (Version.comparePre b.pre b.post b.dev) ∧
      (extKey Tag.key (Version.comparePost a.post) < extKey Tag.key (Version.comparePost b.post) ∨
        extKey Tag.key (Version.comparePost a.post) = extKey Tag.key (Version.comparePost b.post) ∧
      (extKey Tag.key (Version.compareDev a.dev) < extKey Tag.key (Version.compareDev b.dev) ∨
        extKey Tag.key (Version.compareDev a.dev) = extKey Tag.key (Version.compareDev b.dev) ∧
      extKey Local.key (Version.compareLocal a.local_) < extKey Local.key (Version.compareLocal b.local_))))) := by
  simp only [Version.key, Prod.Lex.toLex_lt_toLex]

/-- Versions with the same epoch and release: the tags and the local segment decide. -/
theorem key_lt_same (a b : Version) (he : a.epoch.value = b.epoch.value)
    (hr : a.release.compareParts = b.release.compareParts) :
    a.key < b.key ↔
      (extKey Tag.key (Version.comparePre a.pre a.post a.dev) < extKey Tag.key (Version.comparePre b.pre b.post b.dev) ∨
        extKey Tag.key (Version.comparePre a.pre a.post a.dev) = extKey Tag.key (Version.comparePre b.pre b.post b.dev) ∧
      (extKey Tag.key (Version.comparePost a.post) < extKey Tag.key (Version.comparePost b.post) ∨
        extKey Tag.key (Version.comparePost a.post) = extKey Tag.key (Version.comparePost b.post) ∧
      (extKey Tag.key (Version.compareDev a.dev) < extKey Tag.key (Version.compareDev b.dev) ∨
        extKey Tag.key (Version.compareDev a.dev) = extKey Tag.key (Version.compareDev b.dev) ∧
      extKey Local.key (Version.compareLocal a.local_) < extKey Local.key (Version.compareLocal b.local_)))) := by
  rw [key_lt_iff]
  simp [he, hr]

theorem extKey_fin_lt_posInf {α K : Type} [LinearOrder K] (key : α → K) (a : α) :
    extKey key (.fin a) < extKey key .posInf := coe_coe_lt_top' _

theorem extKey_negInf_lt_fin {α K : Type} [LinearOrder K] (key : α → K) (a : α) :
    extKey key .negInf < extKey key (.fin a) := WithBot.bot_lt_coe _

theorem extKey_negInf_lt_posInf {α K : Type} [LinearOrder K] (key : α → K) :
    extKey key (.negInf : Ext α) < extKey key .posInf := WithBot.bot_lt_coe _

theorem extKey_fin_lt_fin {α K : Type} [LinearOrder K] (key : α → K) (a b : α) :
    extKey key (.fin a) < extKey key (.fin b) ↔ key a < key b := by
  simp [extKey]

theorem tagKey_lt (a b : Tag) :
    a.key < b.key ↔ strKey a.phase < strKey b.phase ∨ strKey a.phase = strKey b.phase ∧ a.value < b.value := by
  simp only [Tag.key, Prod.Lex.toLex_lt_toLex]

/-! ## Tags -/

theorem valid_mem {cls : TagClass} {t : Tag} (h : t.Valid cls) : t.phase ∈ cls.phases.map String.toList := by
  obtain ⟨s, hs, e⟩ := h
  exact List.mem_map.2 ⟨s, hs, e.symm⟩

theorem valid_of_mem {cls : TagClass} {t : Tag} (h : t.phase ∈ cls.phases.map String.toList) : t.Valid cls := by
  obtain ⟨s, hs, e⟩ := List.mem_map.1 h
  exact ⟨s, hs, e.symm⟩

theorem valid_convert : ∀ cls : TagClass, ∀ p ∈ cls.phases.map String.toList,
    Tag.convertPhase p = p ∧ p ∈ cls.phaseSet := by
  intro cls; cases cls <;> decide +kernel

/-- Constructing a tag from an already valid phase keeps the phase. -/
theorem tag_create_valid {cls : TagClass} {t : Tag} (h : t.Valid cls) (n : Int) :
    Tag.create cls t.phase n = .ok ⟨t.phase, n⟩ := by
  obtain ⟨h1, h2⟩ := valid_convert cls _ (valid_mem h)
  simp [Tag.create, h1, h2]

theorem dictGet_mem {β : Type} {d : List (PyStr × β)} {k : PyStr} {v : β} (h : dictGet d k = some v) : (k, v) ∈ d := by
  unfold dictGet at h
  cases hf : d.find? (fun e => e.1 == k) with
  | none => simp [hf] at h
  | some e =>
    have h1 := List.mem_of_find?_eq_some hf
    have h2 := List.find?_some hf
    simp only [hf, Option.map_some, Option.some.injEq] at h
    have h2 : e.1 = k := by simpa using h2
    rw [← h, ← h2]; exact h1

theorem tag_create_ok_valid {cls : TagClass} {p : PyStr} {n : Int} {t : Tag} (h : Tag.create cls p n = .ok t) :
    t.Valid cls ∧ t.value = n ∧ t.phase = Tag.convertPhase p := by
  unfold Tag.create at h
  simp only at h
  split at h
  · rename_i hm
    injection h with h
    subst h
    refine ⟨valid_of_mem ?_, rfl, rfl⟩
    show Tag.convertPhase p ∈ _
    have aux1 : ∀ cls : TagClass, ∀ q ∈ cls.phaseSet, dictGet Phases.shortToPhase q = none →
        q ∈ cls.phases.map String.toList := by
      intro cls; cases cls <;> decide +kernel
    have aux2 : ∀ cls : TagClass, ∀ e ∈ Phases.shortToPhase, e.2 ∈ cls.phaseSet →
        e.2 ∈ cls.phases.map String.toList := by
      intro cls; cases cls <;> decide +kernel
    cases hd : dictGet Phases.shortToPhase p with
    | none =>
      have hc : Tag.convertPhase p = p := by simp [Tag.convertPhase, hd]
      rw [hc] at hm ⊢
      exact aux1 cls p hm hd
    | some q =>
      have hc : Tag.convertPhase p = q := by simp [Tag.convertPhase, hd]
      rw [hc] at hm ⊢
      exact aux2 cls (p, q) (dictGet_mem hd) hm
  · simp at h

end Verif
