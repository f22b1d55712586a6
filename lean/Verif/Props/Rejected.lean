import Verif.Props.DeviceFile

/-!
# How a device file is rejected (C137)

`Daemon(...)` turns a failing assertion of `populate_attrs` (models.py:168-235) into a validation error with its
message, with which the daemon ends when it is started (daemon/__init__.py:51), and which `reload` writes to the
log (cmd.py:85).  Any other exception is handed on as it is.
-/

namespace Tomato.Props.Rejection

/-! ## Specification -/

/-- The first entry of the file which is not consistent. -/
def FirstBad (raw : RawFile) (pip : RawPip) : Prop :=
  ∃ pre post, raw.pipelines = pre ++ pip :: post ∧ (∀ p ∈ pre, ConsistentPip raw p) ∧ ¬ ConsistentPip raw pip

/-- A wildcard which has one device, known, but names a channel of it instead of `each`. -/
def NamesChannel (raw : RawFile) (pip : RawPip) : Prop :=
  IsWild pip.name ∧ ∃ comp, pip.devices = [comp] ∧ (∃ dev, Known raw comp.device dev) ∧ comp.channel ≠ "each"

/-! ## Proof -/

theorem addRefs_error {cs : List RawComp} {df : DeviceFile} {m : Dict String String} {e : PyErr}
    (h : addRefs cs df m = .error e) : e = .assertionError := by
  induction cs generalizing df m with
  | nil => cases h
  | cons c rest ih =>
    simp only [addRefs] at h
    split at h
    · cases h; rfl
    · split at h
      · exact ih h
      · cases h; rfl

theorem addPipeline_error (raw : RawFile) (df : DeviceFile) (hd : df.devices = devDict raw) (pip : RawPip)
    (hb : ¬ ConsistentPip raw pip) :
    (NamesChannel raw pip ∧ addPipeline df pip = .error .keyError) ∨
    (¬ NamesChannel raw pip ∧ addPipeline df pip = .error .assertionError) := by
  rw [← addPipeline_ok raw df hd] at hb
  unfold addPipeline at hb ⊢
  unfold NamesChannel
  rw [isWild_iff]
  by_cases hw : endsWithStar pip.name
  · simp only [hw, if_true, true_and] at hb ⊢
    split
    · next comp hc =>
      simp only [hc, List.cons.injEq, and_true] at hb ⊢
      cases hk : Dict.get? df.devices comp.device with
      | none =>
        refine .inr ⟨?_, rfl⟩
        rintro ⟨c, rfl, ⟨dev, h⟩, -⟩
        rw [known_iff, ← hd, hk] at h
        cases h
      | some dev =>
        simp only [hk] at hb ⊢
        by_cases he : comp.channel = "each"
        · rw [if_pos he] at hb
          exact absurd ⟨_, rfl⟩ hb
        · rw [if_neg he]
          exact .inl ⟨⟨comp, rfl, ⟨dev, (known_iff ..).mpr (hd ▸ hk)⟩, he⟩, rfl⟩
    · next hc =>
      refine .inr ⟨?_, rfl⟩
      rintro ⟨c, h, -⟩
      exact absurd h (hc c)
  · simp only [hw, if_false, false_and, not_false_eq_true, true_and, Bool.false_eq_true] at hb ⊢
    refine .inr ?_
    split
    · next e he => rw [addRefs_error he]
    · next df' m hm => rw [hm] at hb; exact absurd ⟨_, rfl⟩ hb

theorem populateAttrs_error (raw : RawFile) (pip : RawPip) (hb : FirstBad raw pip) :
    (NamesChannel raw pip ∧ populateAttrs raw = .error .keyError) ∨
    (¬ NamesChannel raw pip ∧ populateAttrs raw = .error .assertionError) := by
  obtain ⟨pre, post, hl, hpre, hbad⟩ := hb
  have key : ∀ (ps : List RawPip) (df : DeviceFile), df.devices = devDict raw →
      (∀ p ∈ ps, ConsistentPip raw p) →
      ∃ df', df'.devices = devDict raw ∧ ∀ qs, addPipelines (ps ++ qs) df = addPipelines qs df' := by
    intro ps
    induction ps with
    | nil => intro df hd _; exact ⟨df, hd, fun _ => rfl⟩
    | cons p ps ih =>
      intro df hd hc
      obtain ⟨df1, h1⟩ := (addPipeline_ok raw df hd p).mpr (hc p (by simp))
      obtain ⟨df', h2, h3⟩ := ih df1 ((addPipeline_devices h1).trans hd) (fun q hq => hc q (by simp [hq]))
      exact ⟨df', h2, fun qs => by rw [List.cons_append, addPipelines, h1]; exact h3 qs⟩
  obtain ⟨df', h2, h3⟩ := key pre { devices := devDict raw } rfl hpre
  have h4 := h3 (pip :: post)
  rw [← hl] at h4
  unfold devDict at h4
  unfold populateAttrs
  rw [h4, addPipelines]
  rcases addPipeline_error raw df' h2 pip hbad with ⟨h, he⟩ | ⟨h, he⟩
  · exact .inl ⟨h, by rw [he]⟩
  · exact .inr ⟨h, by rw [he]⟩

/-! ## C137 -/

/-- **C137** (`_partial`: unless the first wrong entry is a wildcard that names a channel; see
`C137_refuted`): a file with a wrong entry is rejected by the failing assertion about the first such entry. -/
theorem C137_explained_partial (raw : RawFile) (pip : RawPip) (hb : FirstBad raw pip)
    (hn : ¬ NamesChannel raw pip) : populateAttrs raw = .error .assertionError :=
  (populateAttrs_error raw pip hb).elim (fun h => absurd h.1 hn) (·.2)

/-- **C137**, exactly: whatever the file, reading it ends with a failing assertion, a `KeyError` or a
configuration; a `KeyError` exactly if the first wrong entry is a wildcard that names a channel, and an
assertion exactly if the first wrong entry is any other one. -/
theorem C137_exact (raw : RawFile) :
    ((∃ df, populateAttrs raw = .ok df) ∨ populateAttrs raw = .error .assertionError ∨
      populateAttrs raw = .error .keyError) ∧
    (populateAttrs raw = .error .keyError ↔ ∃ pip, FirstBad raw pip ∧ NamesChannel raw pip) ∧
    (populateAttrs raw = .error .assertionError ↔ ∃ pip, FirstBad raw pip ∧ ¬ NamesChannel raw pip) := by
  have first : (∀ p ∈ raw.pipelines, ConsistentPip raw p) ∨ ∃ pip, FirstBad raw pip := by
    have : ∀ ps : List RawPip, (∀ p ∈ ps, ConsistentPip raw p) ∨
        ∃ pip pre post, ps = pre ++ pip :: post ∧ (∀ p ∈ pre, ConsistentPip raw p) ∧ ¬ ConsistentPip raw pip := by
      intro ps
      induction ps with
      | nil => left; simp
      | cons p ps ih =>
        by_cases hp : ConsistentPip raw p
        · rcases ih with h | ⟨pip, pre, post, rfl, h1, h2⟩
          · left; simpa [hp] using h
          · right; exact ⟨pip, p :: pre, post, rfl, by simpa [hp] using h1, h2⟩
        · right; exact ⟨p, [], ps, rfl, by simp, hp⟩
    exact this raw.pipelines
  have hok : ∀ pip, FirstBad raw pip → ¬ ∃ df, populateAttrs raw = .ok df := by
    rintro pip ⟨pre, post, hl, -, hb⟩ h
    exact hb ((C35_accepted_iff_consistent raw).mp h pip (by simp [hl]))
  rcases first with h | ⟨pip, h⟩
  · obtain ⟨df, hdf⟩ := (C35_accepted_iff_consistent raw).mpr h
    refine ⟨.inl ⟨df, hdf⟩, ⟨fun e => ?_, fun ⟨p, hp, _⟩ => absurd ⟨df, hdf⟩ (hok p hp)⟩,
      ⟨fun e => ?_, fun ⟨p, hp, _⟩ => absurd ⟨df, hdf⟩ (hok p hp)⟩⟩
    · rw [hdf] at e; cases e
    · rw [hdf] at e; cases e
  · refine ⟨?_, ⟨fun e => ?_, fun ⟨p, hp, hn⟩ => ?_⟩, ⟨fun e => ?_, fun ⟨p, hp, hn⟩ => ?_⟩⟩
    · rcases populateAttrs_error raw pip h with ⟨-, e⟩ | ⟨-, e⟩
      · exact .inr (.inr e)
      · exact .inr (.inl e)
    · rcases populateAttrs_error raw pip h with ⟨hn, -⟩ | ⟨-, e'⟩
      · exact ⟨pip, h, hn⟩
      · rw [e'] at e; cases e
    · exact (populateAttrs_error raw p hp).elim (·.2) (fun h => absurd hn h.1)
    · rcases populateAttrs_error raw pip h with ⟨-, e'⟩ | ⟨hn, -⟩
      · rw [e'] at e; cases e
      · exact ⟨pip, h, hn⟩
    · exact (populateAttrs_error raw p hp).elim (fun h => absurd h.1 hn) (·.2)

/-- A file whose second entry names a channel which the device does not have, and whose third entry is a
wildcard with a channel. -/
def rawBad : RawFile :=
  { devices := [⟨"dev", "drv", "addr", ["1", "2"], 1⟩],
    pipelines := [⟨"pip-*", [⟨"main", "dev", "each"⟩]⟩, ⟨"one", [⟨"main", "dev", "3"⟩]⟩,
                  ⟨"x*", [⟨"main", "dev", "1"⟩]⟩] }

/-- It is rejected because of the second one; without that, because of the third one. -/
example : populateAttrs rawBad = .error .assertionError ∧
    populateAttrs { rawBad with pipelines := [rawBad.pipelines[0], rawBad.pipelines[2]] } = .error .keyError :=
  ⟨rfl, rfl⟩

/-- **C137** is violated: a wildcard for the channel `1` is rejected with a `KeyError`, as the message of the
assertion can not be made. -/
theorem C137_refuted : ∃ (raw : RawFile) (pip : RawPip), FirstBad raw pip ∧
    populateAttrs raw = .error .keyError := by
  have he : populateAttrs { rawBad with pipelines := [⟨"x*", [⟨"main", "dev", "1"⟩]⟩] } = .error .keyError := rfl
  obtain ⟨pip, h, -⟩ := ((C137_exact _).2.1).mp he
  exact ⟨_, pip, h, he⟩

end Tomato.Props.Rejection
