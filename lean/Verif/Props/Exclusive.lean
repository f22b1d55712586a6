import Verif.Props.DeviceFile
import Verif.Props.Races
import Mathlib.Data.List.Pairwise

/-!
# C21: a component serves at most one job
-/

namespace Tomato.Props

/-! ## Specification -/

/-- The two channels are the same hardware. -/
def SameChannel (dev : Device) (ch : String) (dev' : Device) (ch' : String) : Prop :=
  dev.driver = dev'.driver ∧ dev.address = dev'.address ∧ ch = ch'

/-- Different entries of the file never use the same channel. -/
def Exclusive (raw : RawFile) : Prop :=
  raw.pipelines.Pairwise (fun pip pip' => ∀ role dev ch role' dev' ch', Uses raw pip role dev ch →
    Uses raw pip' role' dev' ch' → ¬ SameChannel dev ch dev' ch')

/-- The pipeline called `n` has this component in one of its roles. -/
def Has (df : DeviceFile) (n : String) (c : Component) : Prop :=
  ∃ p role k, Dict.get? df.pipelines n = some p ∧ (role, k) ∈ p.components ∧
    Dict.get? df.components k = some c

/-- The two components are the same hardware. -/
def SameHardware (c c' : Component) : Prop :=
  c.driver = c'.driver ∧ c.address = c'.address ∧ c.channel = c'.channel

/-! ## Proof -/

theorem pips_same {raw : RawFile} {pip : RawPip} {p p' : Pipeline} (hp : PlainNames raw)
    (h : p ∈ pipsOf (devDict raw) pip) (h' : p' ∈ pipsOf (devDict raw) pip)
    {role role' k : String} (hr : (role, k) ∈ p.components) (hr' : (role', k) ∈ p'.components) : p = p' := by
  unfold pipsOf at h h'
  split at h
  · next hw =>
    rw [if_pos hw] at h'
    split at h
    · next comp hcomp =>
      rw [hcomp] at h'
      simp only at h'
      split at h
      · next dev hk =>
        rw [hk] at h'
        simp only at h'
        obtain ⟨ch, hch, rfl⟩ := List.mem_map.mp h
        obtain ⟨ch', hch', rfl⟩ := List.mem_map.mp h'
        simp only [List.mem_singleton, Prod.mk.injEq] at hr hr'
        have hd := known_mem ((known_iff ..).mpr hk)
        obtain ⟨-, -, e⟩ := cmpName_inj (hp dev hd).1 (hp dev hd).1 ((hp dev hd).2 _ hch)
          ((hp dev hd).2 _ hch') (hr.2.symm.trans hr'.2)
        rw [e]
      · cases h
    · cases h
  · next hw =>
    rw [if_neg hw] at h'
    rw [List.mem_singleton] at h h'
    rw [h, h']

/-- Pipelines of an exclusive configuration share no hardware. -/
theorem exclusive_disjoint (raw : RawFile) (df : DeviceFile) (h : populateAttrs raw = .ok df)
    (hp : PlainNames raw) (hx : Exclusive raw) {n n' : String} (hn : n ≠ n') {c c' : Component}
    (hc : Has df n c) (hc' : Has df n' c') : ¬ SameHardware c c' := by
  rintro ⟨e1, e2, e3⟩
  have hcons := (C35_accepted_iff_consistent raw).mp ⟨df, h⟩
  obtain ⟨_, _, h3, _⟩ := populate_eq h
  obtain ⟨p, role, k, hg, hr, hk⟩ := hc
  obtain ⟨p', role', k', hg', hr', hk'⟩ := hc'
  rw [h3] at hg hg'
  obtain ⟨hm, hpn⟩ := get?_setAll_mem hg
  obtain ⟨hm', hpn'⟩ := get?_setAll_mem hg'
  obtain ⟨pip, hpip, hm⟩ := List.mem_flatMap.mp hm
  obtain ⟨pip', hpip', hm'⟩ := List.mem_flatMap.mp hm'
  obtain ⟨dev, ch, hu, hch, hkn, href⟩ := pips_uses (hcons pip hpip) hm hr
  obtain ⟨dev', ch', hu', hch', hkn', href'⟩ := pips_uses (hcons pip' hpip') hm' hr'
  have hdev : dev ∈ raw.devices := by
    obtain ⟨_, _, _, hk, _⟩ := hu
    exact known_mem hk
  have hdev' : dev' ∈ raw.devices := by
    obtain ⟨_, _, _, hk, _⟩ := hu'
    exact known_mem hk
  have hsame : SameChannel dev ch dev' ch' := by
    obtain ⟨c1, g1, a1, a2, a3⟩ := component_of_ref h hp hpip hdev hch href
    obtain ⟨c2, g2, b1, b2, b3⟩ := component_of_ref h hp hpip' hdev' hch' href'
    rw [← hkn, hk] at g1
    rw [← hkn', hk'] at g2
    cases g1
    cases g2
    exact ⟨a1.symm.trans (e1.trans b1), a2.symm.trans (e2.trans b2), a3.symm.trans (e3.trans b3)⟩
  by_cases hpp : pip = pip'
  · subst hpp
    have hkk : k = k' := by
      rw [hkn, hkn', hsame.1, hsame.2.1, hsame.2.2]
    subst hkk
    have := pips_same hp hm hm' hr hr'
    apply hn
    rw [← hpn, ← hpn', this]
  · have hsym : Std.Symm (fun pip pip' : RawPip => ∀ role dev ch role' dev' ch', Uses raw pip role dev ch →
        Uses raw pip' role' dev' ch' → ¬ SameChannel dev ch dev' ch') :=
      ⟨fun a b hab role dev ch role' dev' ch' h1 h2 ⟨s1, s2, s3⟩ =>
        hab _ _ _ _ _ _ h2 h1 ⟨s1.symm, s2.symm, s3.symm⟩⟩
    have := List.Pairwise.forall hx hpip hpip' hpp
    exact this _ _ _ _ _ _ hu hu' hsame

/-- **C21** (partial): in every state, with a configuration file whose entries use different
channels, pipelines with different jobs share no hardware.  Missing: files in which two entries
name the same channel, which are accepted and for which it is false (`C21_refuted`), and names
containing `(` or `,` (`C33_refuted`). -/
theorem C21_one_job_per_component_partial {st : String} {s : Sys} (hr : Reachable st s) (raw : RawFile) (df : DeviceFile)
    (h : populateAttrs raw = .ok df) (hp : PlainNames raw) (hx : Exclusive raw)
    (p q : PipState) (hpm : p ∈ s.w.pips) (hqm : q ∈ s.w.pips) (i j : Nat) (hi : p.jobid = some i)
    (hj : q.jobid = some j) (hij : i ≠ j) (c c' : Component) (hc : Has df p.name c) (hc' : Has df q.name c') :
    ¬ SameHardware c c' := by
  refine exclusive_disjoint raw df h hp hx ?_ hc hc'
  intro hn
  have hw := reachable_wf hr
  have e1 := hw.pip?_mem hpm
  have e2 := hw.pip?_mem hqm
  rw [hn, e2] at e1
  cases e1
  rw [hi] at hj
  cases hj
  exact hij rfl

/-- Two entries with a channel each. -/
def rawOwn : RawFile :=
  { devices := [⟨"dev", "d", "a", ["1", "2"], 1⟩],
    pipelines := [⟨"p", [⟨"x", "dev", "1"⟩]⟩, ⟨"q", [⟨"x", "dev", "2"⟩]⟩] }

/-- Two entries that name the same channel. -/
def rawShared : RawFile :=
  { devices := [⟨"dev", "d", "a", ["1", "2"], 1⟩],
    pipelines := [⟨"p", [⟨"x", "dev", "1"⟩]⟩, ⟨"q", [⟨"x", "dev", "1"⟩]⟩] }

/-- The configuration made from it. -/
def dfShared : DeviceFile :=
  { components := [("d:(a,1)", ⟨"d:(a,1)", "dev", "d", "a", "1"⟩)],
    devices := [("dev", { name := "dev", driver := "d", address := "a", channels := ["1", "2"] })],
    drivers := [("d", { name := "d" })],
    pipelines := [("p", ⟨"p", [("x", "d:(a,1)")]⟩), ("q", ⟨"q", [("x", "d:(a,1)")]⟩)] }

/-- The daemon with this configuration. -/
def dShared : Daemon := { devicefile := dfShared }

/-- Samples are loaded on both pipelines, a job is submitted for each, and the job manager makes
one pass. -/
def sharedBoot : List Act :=
  [.spawn (.reload { dShared with status := .bootstrap } none)] ++ run 0 9 ++
  [.spawn (.driverStart "d" 5000 70 "1.0")] ++ run 1 2 ++ [.env (.drv okDrv)] ++
  [.spawn (.load (some dShared) "p" "s")] ++ run 2 3 ++ [.spawn (.ready (some dShared) "p")] ++ run 3 3 ++
  [.spawn (.load (some dShared) "q" "t")] ++ run 4 3 ++ [.spawn (.ready (some dShared) "q")] ++ run 5 3 ++
  [.spawn (.submit (.parsed (plS "s")) none dShared "/home")] ++ run 6 4 ++
  [.spawn (.submit (.parsed (plS "t")) none dShared "/home")] ++ run 7 4 ++
  [.jmStart dShared]

/-- See `sharedBoot`. -/
def sShared : Sys := after (sharedBoot ++ jm 39) Sys.init

/-- **C21 is false of the code**: a file in which two pipelines name the same channel is accepted,
and then two different jobs are launched on the same component. -/
theorem C21_refuted : populateAttrs rawShared = .ok dfShared ∧ ∃ s : Sys, Reachable "Jobs" s ∧
    s.w.launches = [⟨1, "p"⟩, ⟨2, "q"⟩] ∧ jobOf s "p" = some (some 1) ∧ jobOf s "q" = some (some 2) ∧
    ∃ c, Has dfShared "p" c ∧ Has dfShared "q" c := by
  refine ⟨rfl, sShared, steps_after (by decide +kernel), by decide +kernel, by decide +kernel, by decide +kernel,
    ⟨"d:(a,1)", "dev", "d", "a", "1"⟩, ?_, ?_⟩
  · exact ⟨_, "x", "d:(a,1)", rfl, by decide, rfl⟩
  · exact ⟨_, "x", "d:(a,1)", rfl, by decide, rfl⟩

theorem uses_ordinary {raw : RawFile} {pip : RawPip} (hw : ¬ IsWild pip.name) {role : String} {dev : Device}
    {ch : String} (h : Uses raw pip role dev ch) : ∃ comp ∈ pip.devices, comp.channel = ch := by
  obtain ⟨comp, h1, -, -, -, h2⟩ := h
  exact ⟨comp, h1, (h2 hw).symm⟩

/-- The hypotheses of the theorem hold for two entries with a channel each. -/
example : (∃ df, populateAttrs rawOwn = .ok df) ∧ PlainNames rawOwn ∧ Exclusive rawOwn := by
  refine ⟨⟨_, rfl⟩, ?_, ?_⟩
  · intro dev hd
    simp only [rawOwn, List.mem_singleton] at hd
    subst hd
    decide
  · have h1 : ¬ IsWild "p" := fun h => absurd ((isWild_iff _).mp h) (by decide)
    have h2 : ¬ IsWild "q" := fun h => absurd ((isWild_iff _).mp h) (by decide)
    refine List.Pairwise.cons ?_ (List.pairwise_singleton ..)
    intro pip hpip role dev ch role' dev' ch' hu hu' hs
    rw [List.mem_singleton] at hpip
    subst hpip
    obtain ⟨c1, hc1, e1⟩ := uses_ordinary h1 hu
    obtain ⟨c2, hc2, e2⟩ := uses_ordinary h2 hu'
    rw [List.mem_singleton] at hc1 hc2
    subst hc1 hc2
    rw [← e1, ← e2] at hs
    exact absurd hs.2.2 (by decide)

end Tomato.Props
