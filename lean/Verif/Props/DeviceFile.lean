import Verif.DeviceFile
import Verif.Props.Cmd

/-!
# Properties of parsed device files (C32 - C36)
-/

namespace Tomato.Props

/-! ## Specification -/

/-- The device called `n` in the file (of several the last one counts). -/
def Known (raw : RawFile) (n : String) (dev : Device) : Prop :=
  ∃ pre post, raw.devices = pre ++ dev :: post ∧ dev.name = n ∧ ∀ d ∈ post, d.name ≠ n

/-- The name of a wildcard pipeline: something followed by a star. -/
def IsWild (n : String) : Prop := ∃ base : String, n = base ++ "*"

/-- An entry is consistent. -/
def ConsistentPip (raw : RawFile) (pip : RawPip) : Prop :=
  (IsWild pip.name → ∃ comp, pip.devices = [comp] ∧ comp.channel = "each" ∧
    ∃ dev, Known raw comp.device dev) ∧
  (¬ IsWild pip.name → ∀ comp ∈ pip.devices, ∃ dev, Known raw comp.device dev ∧
    comp.channel ∈ dev.channels)

/-- An entry uses this channel of this device in this role. -/
def Uses (raw : RawFile) (pip : RawPip) (role : String) (dev : Device) (ch : String) : Prop :=
  ∃ comp ∈ pip.devices, comp.role = role ∧ Known raw comp.device dev ∧
    (IsWild pip.name → ch ∈ dev.channels) ∧ (¬ IsWild pip.name → ch = comp.channel)

/-! ## Lemmas -/

theorem known_iff (raw : RawFile) (n : String) (dev : Device) :
    Known raw n dev ↔ Dict.get? (devDict raw) n = some dev := by
  unfold devDict
  rw [Dict.get?_ofList, ← List.map_reverse, List.find?_map, Option.map_map]
  constructor
  · rintro ⟨pre, post, he, hn, hp⟩
    rw [he, List.reverse_append, List.reverse_cons, List.append_assoc, List.find?_append]
    have : post.reverse.find? ((fun kv : String × Device => decide (kv.1 = n)) ∘ fun d => (d.name, d)) = none := by
      rw [List.find?_eq_none]
      intro x hx
      simpa using hp x (List.mem_reverse.mp hx)
    rw [this]
    simp [hn]
  · intro h
    cases hf : raw.devices.reverse.find? ((fun kv : String × Device => decide (kv.1 = n)) ∘ fun d => (d.name, d)) with
    | none => rw [hf] at h; cases h
    | some d =>
      rw [hf] at h
      cases h
      obtain ⟨h1, as, bs, h2, h3⟩ := List.find?_eq_some_iff_append.mp hf
      refine ⟨bs.reverse, as.reverse, ?_, by simpa using h1, ?_⟩
      · have := congrArg List.reverse h2
        simpa using this
      · intro x hx
        have := h3 x (List.mem_reverse.mp hx)
        simpa using this

theorem isWild_iff (n : String) : IsWild n ↔ endsWithStar n = true := by
  unfold IsWild endsWithStar
  rw [decide_eq_true_eq]
  constructor
  · rintro ⟨b, rfl⟩
    simp
  · intro h
    obtain ⟨ys, hy⟩ := List.getLast?_eq_some_iff.mp h
    refine ⟨String.ofList ys, ?_⟩
    apply String.toList_injective
    simp [hy]

/-! ## C35 -/

theorem addRefs_ok (cs : List RawComp) (df : DeviceFile) (m : Dict String String) :
    (∃ r, addRefs cs df m = .ok r) ↔
      ∀ comp ∈ cs, ∃ dev, Dict.get? df.devices comp.device = some dev ∧
        comp.channel ∈ dev.channels := by
  induction cs generalizing df m with
  | nil => simp [addRefs]
  | cons c rest ih =>
    simp only [addRefs, List.mem_cons, forall_eq_or_imp]
    cases hd : Dict.get? df.devices c.device with
    | none => simp
    | some dev =>
      by_cases hc : c.channel ∈ dev.channels
      · simp only [hc, if_true, ih, addComp_devices, Option.some.injEq]
        exact ⟨fun h => ⟨⟨dev, rfl, hc⟩, h⟩, fun h => h.2⟩
      · simp only [hc, if_false, Option.some.injEq]
        refine ⟨fun ⟨_, h⟩ => (by cases h), ?_⟩
        rintro ⟨⟨d, rfl, h⟩, _⟩
        exact absurd h hc

theorem addPipeline_ok (raw : RawFile) (df : DeviceFile) (hd : df.devices = devDict raw)
    (pip : RawPip) : (∃ df', addPipeline df pip = .ok df') ↔ ConsistentPip raw pip := by
  unfold addPipeline ConsistentPip
  rw [isWild_iff]
  by_cases hw : endsWithStar pip.name
  · simp only [hw, if_true, not_true_eq_false, false_imp_iff, and_true, true_imp_iff]
    split
    · next comp hc =>
      rw [hd]
      simp only [hc, List.cons.injEq, and_true]
      split
      · next hn =>
        refine ⟨fun ⟨_, h⟩ => (by cases h), ?_⟩
        rintro ⟨c, rfl, _, dev, hk⟩
        rw [known_iff, hn] at hk
        cases hk
      · next dev hk =>
        split
        · next he => exact ⟨fun _ => ⟨comp, rfl, he, dev, (known_iff ..).mpr hk⟩, fun _ => ⟨_, rfl⟩⟩
        · next he =>
          refine ⟨fun ⟨_, h⟩ => (by cases h), ?_⟩
          rintro ⟨c, rfl, h, _⟩
          exact absurd h he
    · next hc =>
      refine ⟨fun ⟨_, h⟩ => (by cases h), ?_⟩
      rintro ⟨c, h, _⟩
      exact absurd h (hc c)
  · simp only [hw, if_false, false_imp_iff, true_and, not_false_eq_true, true_imp_iff,
      Bool.false_eq_true]
    have := addRefs_ok pip.devices df []
    rw [hd] at this
    simp only [known_iff]
    rw [← this]
    constructor
    · rintro ⟨df', h⟩
      split at h
      · cases h
      · next hr => exact ⟨_, hr⟩
    · rintro ⟨⟨df', m⟩, h⟩
      rw [h]
      exact ⟨_, rfl⟩

/-- **C35**: a device file is accepted exactly when every pipeline names known devices and
channels, wildcards having exactly one device with channel `each`. -/
theorem C35_accepted_iff_consistent (raw : RawFile) :
    (∃ df, populateAttrs raw = .ok df) ↔ ∀ pip ∈ raw.pipelines, ConsistentPip raw pip := by
  have key : ∀ (ps : List RawPip) (df : DeviceFile), df.devices = devDict raw →
      ((∃ df', addPipelines ps df = .ok df') ↔ ∀ pip ∈ ps, ConsistentPip raw pip) := by
    intro ps
    induction ps with
    | nil => intro df _; simp [addPipelines]
    | cons p rest ih =>
      intro df hd
      simp only [addPipelines, List.mem_cons, forall_eq_or_imp]
      rw [← addPipeline_ok raw df hd p]
      split
      · next h =>
        refine ⟨fun ⟨_, h⟩ => (by cases h), ?_⟩
        rintro ⟨⟨df', h'⟩, _⟩
        rw [h] at h'
        cases h'
      · next df' h =>
        rw [ih df' ((addPipeline_devices h).trans hd)]
        exact ⟨fun hr => ⟨⟨df', h⟩, hr⟩, fun hr => hr.2⟩
  rw [← key raw.pipelines { devices := devDict raw } rfl]
  unfold populateAttrs
  constructor
  · rintro ⟨df, h⟩
    split at h
    · cases h
    · next hp => exact ⟨_, hp⟩
  · rintro ⟨df, h⟩
    unfold devDict at h
    rw [h]
    exact ⟨_, rfl⟩

/-- A file with a wildcard and an ordinary pipeline. -/
def rawA : RawFile :=
  { devices := [⟨"dev", "drv", "addr", ["1", "2"], 1⟩, ⟨"temp", "drv", "t", ["5"], 1⟩],
    pipelines := [⟨"pip-*", [⟨"main", "dev", "each"⟩]⟩,
                  ⟨"pair", [⟨"left", "dev", "2"⟩, ⟨"right", "temp", "5"⟩]⟩] }

example : (populateAttrs rawA).toOption.map (fun df => Dict.keys df.pipelines) =
    some ["pip-1", "pip-2", "pair"] := by decide
example : ∃ df, populateAttrs rawA = .ok df := ⟨_, rfl⟩
example : ¬ ∃ df, populateAttrs { rawA with pipelines := [⟨"x*", [⟨"main", "dev", "1"⟩]⟩] } = .ok df := by
  rintro ⟨df, h⟩
  have : populateAttrs { rawA with pipelines := [⟨"x*", [⟨"main", "dev", "1"⟩]⟩] } =
    .error .keyError := rfl
  rw [this] at h
  cases h

/-! ## C32, C36 -/

/-- A component is the given channel of the given device. -/
def IsChannel (c : Component) (dev : Device) (ch : String) : Prop :=
  c.device = dev.name ∧ c.driver = dev.driver ∧ c.address = dev.address ∧ c.channel = ch

theorem refs_uses {raw : RawFile} {pip : RawPip} {c : Component}
    (hc : ConsistentPip raw pip) (h : c ∈ refsOf (devDict raw) pip) :
    ∃ role dev ch, Uses raw pip role dev ch ∧ ch ∈ dev.channels ∧ c = mkComp dev ch ∧
      ∃ p ∈ pipsOf (devDict raw) pip, IsWild pip.name → (role, c.name) ∈ p.components := by
  unfold refsOf at h
  split at h
  · next hw =>
    split at h
    · next comp hcomp =>
      split at h
      · next dev hk =>
        obtain ⟨ch, hch, rfl⟩ := List.mem_map.mp h
        refine ⟨comp.role, dev, ch, ⟨comp, by simp [hcomp], rfl, (known_iff ..).mpr hk,
          fun _ => hch, fun h => absurd ((isWild_iff _).mpr hw) h⟩, hch, rfl, ?_⟩
        unfold pipsOf
        rw [if_pos hw]
        simp only [hcomp, hk]
        exact ⟨_, List.mem_map.mpr ⟨ch, hch, rfl⟩, fun _ => by simp [mkComp]⟩
      · cases h
    · cases h
  · next hw =>
    obtain ⟨comp, hcomp, he⟩ := List.mem_filterMap.mp h
    cases hk : Dict.get? (devDict raw) comp.device with
    | none => rw [hk] at he; cases he
    | some dev =>
      rw [hk] at he
      simp only [Option.map_some, Option.some.injEq] at he
      have hw' : ¬ IsWild pip.name := fun h => hw ((isWild_iff _).mp h)
      obtain ⟨dev', hk', hch⟩ := hc.2 hw' comp hcomp
      rw [known_iff, hk] at hk'
      cases hk'
      refine ⟨comp.role, dev, comp.channel, ⟨comp, hcomp, rfl, (known_iff ..).mpr hk,
        fun h => absurd h hw', fun _ => rfl⟩, hch, he.symm, ?_⟩
      unfold pipsOf
      rw [if_neg hw]
      exact ⟨_, List.mem_singleton.mpr rfl, fun h => absurd h hw'⟩

/-- The roles of a pipeline made by an entry are bound to components the entry refers to. -/
theorem pips_refs {raw : RawFile} {pip : RawPip} {p : Pipeline} {role cname : String}
    (h : p ∈ pipsOf (devDict raw) pip) (hr : (role, cname) ∈ p.components) :
    ∃ c ∈ refsOf (devDict raw) pip, c.name = cname := by
  unfold pipsOf at h
  unfold refsOf
  split at h
  · next hw =>
    rw [if_pos hw]
    split at h
    · next comp hcomp =>
      split at h
      · next dev hk =>
        obtain ⟨ch, hch, rfl⟩ := List.mem_map.mp h
        simp only [List.mem_singleton, Prod.mk.injEq] at hr
        exact ⟨_, List.mem_map.mpr ⟨ch, hch, rfl⟩, hr.2.symm⟩
      · cases h
    · cases h
  · next hw =>
    rw [if_neg hw]
    rw [List.mem_singleton] at h
    subst h
    have hg := Dict.get?_of_mem_nodup (Dict.keys_nodup_ofList _) hr
    rw [Dict.get?_ofList] at hg
    cases hf : (rolesOf (devDict raw) pip.devices).reverse.find? (fun kv => decide (kv.1 = role)) with
    | none => rw [hf] at hg; cases hg
    | some kv =>
      rw [hf] at hg
      simp only [Option.map_some, Option.some.injEq] at hg
      have hm := List.mem_reverse.mp (List.mem_of_find?_eq_some hf)
      obtain ⟨comp, hcomp, he⟩ := List.mem_filterMap.mp hm
      cases hk : Dict.get? (devDict raw) comp.device with
      | none => rw [hk] at he; cases he
      | some dev =>
        rw [hk] at he
        simp only [Option.map_some, Option.some.injEq] at he
        refine ⟨mkComp dev comp.channel, List.mem_filterMap.mpr ⟨comp, hcomp, by rw [hk]; rfl⟩, ?_⟩
        rw [← hg, ← he]
        rfl

/-- **C32**: in every accepted device file, pipelines refer to known components, components to
known devices (same driver and address, one of its channels) and known drivers. -/
theorem C32_closed (raw : RawFile) (df : DeviceFile) (h : populateAttrs raw = .ok df) :
    (∀ n p, Dict.get? df.pipelines n = some p → ∀ rc ∈ p.components,
      ∃ c, Dict.get? df.components rc.2 = some c) ∧
    (∀ n c, Dict.get? df.components n = some c →
      (∃ dev, Dict.get? df.devices c.device = some dev ∧ dev ∈ raw.devices ∧
        c.driver = dev.driver ∧ c.address = dev.address ∧ c.channel ∈ dev.channels) ∧
      (∃ drv, Dict.get? df.drivers c.driver = some drv ∧ drv.name = c.driver)) := by
  have hcons := (C35_accepted_iff_consistent raw).mp ⟨df, h⟩
  obtain ⟨h1, h2, h3, h4⟩ := populate_eq h
  constructor
  · intro n p hp rc hrc
    rw [h3] at hp
    obtain ⟨hm, _⟩ := get?_setAll_mem hp
    obtain ⟨pip, hpip, hm⟩ := List.mem_flatMap.mp hm
    obtain ⟨c, hc, hcn⟩ := pips_refs hm (role := rc.1) (cname := rc.2) hrc
    obtain ⟨y, _, _, hy⟩ := get?_setAll_isSome (key := fun c : Component => c.name)
      (List.mem_flatMap.mpr ⟨pip, hpip, hc⟩)
    rw [h2, ← hcn]
    exact ⟨y, hy⟩
  · intro n c hc
    have hc0 := hc
    rw [h2] at hc
    obtain ⟨hm, _⟩ := get?_setAll_mem hc
    obtain ⟨pip, hpip, hm⟩ := List.mem_flatMap.mp hm
    obtain ⟨role, dev, ch, ⟨comp, _, _, hk, _⟩, hch, he, _⟩ := refs_uses (hcons pip hpip) hm
    subst he
    constructor
    · have hk0 := hk
      obtain ⟨pre, post, hd, hn, _⟩ := hk
      refine ⟨dev, ?_, by simp [hd], rfl, rfl, hch⟩
      rw [h1]
      show Dict.get? _ dev.name = _
      rw [hn]
      exact (known_iff ..).mp hk0
    · rw [h4, Dict.get?_ofList]
      have hv : mkComp dev ch ∈ Dict.values df.components := by
        have := Dict.get?_some_mem hc0
        exact List.mem_map.mpr ⟨_, this, rfl⟩
      cases hf : ((Dict.values df.components).map
          (fun c => (c.driver, ({ name := c.driver } : Driver)))).reverse.find?
          (fun kv => decide (kv.1 = (mkComp dev ch).driver)) with
      | none =>
        rw [List.find?_eq_none] at hf
        have := hf _ (List.mem_reverse.mpr (List.mem_map.mpr ⟨_, hv, rfl⟩))
        simp at this
      | some kv =>
        refine ⟨kv.2, rfl, ?_⟩
        have e : kv.1 = (mkComp dev ch).driver := by simpa using List.find?_some hf
        have hm2 := List.mem_reverse.mp (List.mem_of_find?_eq_some hf)
        obtain ⟨c', _, rfl⟩ := List.mem_map.mp hm2
        exact e

/-- Every parsed device file stores its pipelines and components under their names; this is
the hypothesis of `C27`. -/
theorem namesMatch_parsed (raw : RawFile) (df : DeviceFile) (h : populateAttrs raw = .ok df) :
    NamesMatch df ∧ (∀ k c, Dict.get? df.components k = some c → c.name = k) ∧
    (Dict.keys df.pipelines).Nodup ∧ (Dict.keys df.components).Nodup := by
  obtain ⟨_, h2, h3, _⟩ := populate_eq h
  refine ⟨?_, ?_, ?_, ?_⟩
  · intro k p hp
    rw [h3] at hp
    exact (get?_setAll_mem hp).2
  · intro k p hp
    rw [h2] at hp
    exact (get?_setAll_mem hp).2
  · rw [h3]; exact keys_nodup_setAll (by simp [Dict.keys])
  · rw [h2]; exact keys_nodup_setAll (by simp [Dict.keys])

/-! ## C33 -/

theorem split_first {α : Type} {x : α} {l l' r r' : List α} (hl : x ∉ l) (hl' : x ∉ l')
    (h : l ++ x :: r = l' ++ x :: r') : l = l' ∧ r = r' := by
  induction l generalizing l' with
  | nil =>
    cases l' with
    | nil => simp only [List.nil_append, List.cons.injEq, true_and] at h; exact ⟨rfl, h⟩
    | cons y l' =>
      simp only [List.nil_append, List.cons_append, List.cons.injEq] at h
      exact absurd (h.1 ▸ List.mem_cons_self) hl'
  | cons y l ih =>
    cases l' with
    | nil =>
      simp only [List.nil_append, List.cons_append, List.cons.injEq] at h
      exact absurd (h.1 ▸ List.mem_cons_self) hl
    | cons z l' =>
      simp only [List.cons_append, List.cons.injEq] at h
      obtain ⟨h1, h2⟩ := ih (fun hm => hl (List.mem_cons_of_mem _ hm))
        (fun hm => hl' (List.mem_cons_of_mem _ hm)) h.2
      exact ⟨by rw [h.1, h1], h2⟩

theorem split_last {α : Type} {x : α} {l l' r r' : List α} (hr : x ∉ r) (hr' : x ∉ r')
    (h : l ++ x :: r = l' ++ x :: r') : l = l' ∧ r = r' := by
  have h2 : r.reverse ++ x :: l.reverse = r'.reverse ++ x :: l'.reverse := by
    have := congrArg List.reverse h
    simpa using this
  obtain ⟨h3, h4⟩ := split_first (fun hm => hr (List.mem_reverse.mp hm))
    (fun hm => hr' (List.mem_reverse.mp hm)) h2
  exact ⟨List.reverse_inj.mp h4, List.reverse_inj.mp h3⟩

/-- Driver names without `(` and channels without `,` make component names unambiguous. -/
theorem cmpName_inj {d d' a a' c c' : String} (hd : '(' ∉ d.toList) (hd' : '(' ∉ d'.toList)
    (hc : ',' ∉ c.toList) (hc' : ',' ∉ c'.toList) (h : cmpName d a c = cmpName d' a' c') :
    d = d' ∧ a = a' ∧ c = c' := by
  have h1 := congrArg String.toList h
  simp only [cmpName, String.toList_append] at h1
  have e1 : ":(".toList = [':', '('] := rfl
  have e2 : ",".toList = [','] := rfl
  have e3 : ")".toList = [')'] := rfl
  rw [e1, e2, e3] at h1
  have h2 : (d.toList ++ [':']) ++ '(' :: (a.toList ++ ',' :: (c.toList ++ [')'])) =
      (d'.toList ++ [':']) ++ '(' :: (a'.toList ++ ',' :: (c'.toList ++ [')'])) := by
    simpa using h1
  obtain ⟨h3, h4⟩ := split_first (by simp [hd]) (by simp [hd']) h2
  obtain ⟨h5, h6⟩ := split_last (by simp [hc]) (by simp [hc']) h4
  exact ⟨String.toList_injective (List.append_cancel_right h3), String.toList_injective h5,
    String.toList_injective (List.append_cancel_right h6)⟩

/-- Names that cannot be confused with the punctuation of component names. -/
def PlainNames (raw : RawFile) : Prop :=
  ∀ dev ∈ raw.devices, '(' ∉ dev.driver.toList ∧ ∀ ch ∈ dev.channels, ',' ∉ ch.toList

theorem pips_uses {raw : RawFile} {pip : RawPip} {p : Pipeline} {role cname : String}
    (hc : ConsistentPip raw pip)
    (h : p ∈ pipsOf (devDict raw) pip) (hr : (role, cname) ∈ p.components) :
    ∃ dev ch, Uses raw pip role dev ch ∧ ch ∈ dev.channels ∧
      cname = cmpName dev.driver dev.address ch ∧ mkComp dev ch ∈ refsOf (devDict raw) pip := by
  unfold pipsOf at h
  unfold refsOf
  split at h
  · next hw =>
    rw [if_pos hw]
    split at h
    · next comp hcomp =>
      split at h
      · next dev hk =>
        obtain ⟨ch, hch, rfl⟩ := List.mem_map.mp h
        simp only [List.mem_singleton, Prod.mk.injEq] at hr
        refine ⟨dev, ch, ⟨comp, by simp [hcomp], hr.1.symm, (known_iff ..).mpr hk, fun _ => hch,
          fun h => absurd ((isWild_iff _).mpr hw) h⟩, hch, hr.2, ?_⟩
        exact List.mem_map.mpr ⟨ch, hch, rfl⟩
      · cases h
    · cases h
  · next hw =>
    rw [if_neg hw]
    have hw' : ¬ IsWild pip.name := fun h => hw ((isWild_iff _).mp h)
    rw [List.mem_singleton] at h
    subst h
    have hg := Dict.get?_of_mem_nodup (Dict.keys_nodup_ofList _) hr
    rw [Dict.get?_ofList] at hg
    cases hf : (rolesOf (devDict raw) pip.devices).reverse.find? (fun kv => decide (kv.1 = role)) with
    | none => rw [hf] at hg; cases hg
    | some kv =>
      rw [hf] at hg
      simp only [Option.map_some, Option.some.injEq] at hg
      have hkv : kv.1 = role := by simpa using List.find?_some hf
      have hm := List.mem_reverse.mp (List.mem_of_find?_eq_some hf)
      obtain ⟨comp, hcomp, he⟩ := List.mem_filterMap.mp hm
      obtain ⟨dev, hk, hch⟩ := hc.2 hw' comp hcomp
      have hk' := (known_iff ..).mp hk
      rw [hk'] at he
      simp only [Option.map_some, Option.some.injEq] at he
      refine ⟨dev, comp.channel, ⟨comp, hcomp, ?_, hk, fun h => absurd h hw', fun _ => rfl⟩, hch,
        ?_, List.mem_filterMap.mpr ⟨comp, hcomp, by rw [hk']; rfl⟩⟩
      · rw [← hkv, ← he]
      · rw [← hg, ← he]

theorem uses_refs {raw : RawFile} {pip : RawPip} {role : String} {dev : Device} {ch : String}
    (hc : ConsistentPip raw pip) (h : Uses raw pip role dev ch) :
    mkComp dev ch ∈ refsOf (devDict raw) pip ∧ ch ∈ dev.channels := by
  obtain ⟨comp, hm, _, hk, h1, h2⟩ := h
  have hk' := (known_iff ..).mp hk
  unfold refsOf
  by_cases hw : IsWild pip.name
  · obtain ⟨c, hd, _⟩ := hc.1 hw
    rw [hd, List.mem_singleton] at hm
    subst hm
    rw [if_pos ((isWild_iff _).mp hw)]
    simp only [hd, hk']
    exact ⟨List.mem_map.mpr ⟨ch, h1 hw, rfl⟩, h1 hw⟩
  · obtain ⟨dev', hk2, hch⟩ := hc.2 hw comp hm
    have := (known_iff ..).mp hk2
    rw [hk'] at this
    cases this
    rw [if_neg (fun h => hw ((isWild_iff _).mpr h)), h2 hw]
    exact ⟨List.mem_filterMap.mpr ⟨comp, hm, by rw [hk']; rfl⟩, hch⟩

theorem known_mem {raw : RawFile} {n : String} {dev : Device} (h : Known raw n dev) :
    dev ∈ raw.devices := by
  obtain ⟨pre, post, he, _⟩ := h
  simp [he]

theorem component_of_ref {raw : RawFile} {df : DeviceFile} (h : populateAttrs raw = .ok df)
    (hp : PlainNames raw) {pip : RawPip} (hpip : pip ∈ raw.pipelines) {dev : Device} {ch : String}
    (hdev : dev ∈ raw.devices) (hch : ch ∈ dev.channels)
    (hr : mkComp dev ch ∈ refsOf (devDict raw) pip) :
    ∃ c, Dict.get? df.components (cmpName dev.driver dev.address ch) = some c ∧
      c.driver = dev.driver ∧ c.address = dev.address ∧ c.channel = ch := by
  have hcons := (C35_accepted_iff_consistent raw).mp ⟨df, h⟩
  obtain ⟨_, h2, _, _⟩ := populate_eq h
  obtain ⟨c, hm, hn, hg⟩ := get?_setAll_isSome (key := fun c : Component => c.name)
    (List.mem_flatMap.mpr ⟨pip, hpip, hr⟩)
  rw [← h2] at hg
  obtain ⟨pip', hpip', hm⟩ := List.mem_flatMap.mp hm
  obtain ⟨role', dev', ch', ⟨comp', _, _, hk', _⟩, hch', he, _⟩ := refs_uses (hcons pip' hpip') hm
  subst he
  have hdev' := known_mem hk'
  obtain ⟨e1, e2, e3⟩ := cmpName_inj (hp dev' hdev').1 (hp dev hdev).1 ((hp dev' hdev').2 _ hch')
    ((hp dev hdev).2 _ hch) hn
  exact ⟨_, hg, e1, e2, e3⟩

/-- **C33** (partial): if driver names contain no `(` and channels no `,`, no component replaces
a different one: every channel used by an entry has its component, and every role of every
pipeline is bound to a component that is the very channel some entry names for this role.
Missing: names with such characters, for which it is false (`C33_refuted`). -/
theorem C33_names_identify_partial (raw : RawFile) (df : DeviceFile)
    (h : populateAttrs raw = .ok df) (hp : PlainNames raw) :
    (∀ pip ∈ raw.pipelines, ∀ role dev ch, Uses raw pip role dev ch →
      ∃ k c, Dict.get? df.components k = some c ∧
        c.driver = dev.driver ∧ c.address = dev.address ∧ c.channel = ch) ∧
    (∀ n p, Dict.get? df.pipelines n = some p → ∃ pip ∈ raw.pipelines,
      ∀ rc ∈ p.components, ∃ dev ch c, Uses raw pip rc.1 dev ch ∧
        Dict.get? df.components rc.2 = some c ∧
        c.driver = dev.driver ∧ c.address = dev.address ∧ c.channel = ch) := by
  have hcons := (C35_accepted_iff_consistent raw).mp ⟨df, h⟩
  obtain ⟨_, h2, h3, _⟩ := populate_eq h
  constructor
  · intro pip hpip role dev ch hu
    obtain ⟨hr, hch⟩ := uses_refs (hcons pip hpip) hu
    obtain ⟨comp, _, _, hk, _⟩ := hu
    exact ⟨_, component_of_ref h hp hpip (known_mem hk) hch hr⟩
  · intro n p hn
    rw [h3] at hn
    obtain ⟨hm, _⟩ := get?_setAll_mem hn
    obtain ⟨pip, hpip, hm⟩ := List.mem_flatMap.mp hm
    refine ⟨pip, hpip, ?_⟩
    rintro ⟨role, cname⟩ hrc
    obtain ⟨dev, ch, hu, hch, rfl, hr⟩ := pips_uses (hcons pip hpip) hm hrc
    have hu0 := hu
    obtain ⟨comp, _, _, hk, _⟩ := hu
    obtain ⟨c, hc⟩ := component_of_ref h hp hpip (known_mem hk) hch hr
    exact ⟨dev, ch, c, hu0, hc⟩

example : PlainNames rawA := by
  intro dev hd
  simp only [rawA, List.mem_cons, List.not_mem_nil, or_false] at hd
  rcases hd with rfl | rfl <;> decide

/-- Two devices: address `a,b` with channel `c`, and address `a` with channel `b,c`. -/
def rawComma : RawFile :=
  { devices := [⟨"one", "drv", "a,b", ["c"], 1⟩, ⟨"two", "drv", "a", ["b,c"], 1⟩],
    pipelines := [⟨"p", [⟨"main", "one", "c"⟩]⟩, ⟨"q", [⟨"main", "two", "b,c"⟩]⟩] }

/-- **C33 is false of the code**: an accepted file in which one entry's component replaces the
component of another entry on a different channel, so that pipeline `p` drives the wrong device. -/
theorem C33_refuted : ∃ raw df, populateAttrs raw = .ok df ∧
    ∃ pip ∈ raw.pipelines, ∃ role dev ch, Uses raw pip role dev ch ∧
      (∀ k c, Dict.get? df.components k = some c → c.address ≠ dev.address) ∧
      ∃ p c k, Dict.get? df.pipelines pip.name = some p ∧ (role, k) ∈ p.components ∧
        Dict.get? df.components k = some c ∧ c.address ≠ dev.address := by
  refine ⟨rawComma, _, rfl, ⟨"p", [⟨"main", "one", "c"⟩]⟩, by decide, "main",
    ⟨"one", "drv", "a,b", ["c"], 1⟩, "c", ?_, ?_, ?_⟩
  · refine ⟨⟨"main", "one", "c"⟩, by simp, rfl, ⟨[], _, rfl, rfl, ?_⟩, ?_, fun _ => rfl⟩
    · intro d hd
      simp only [List.mem_singleton] at hd
      subst hd
      decide
    · intro h
      exact absurd ((isWild_iff _).mp h) (by decide)
  · intro k c hc
    have := Dict.get?_some_mem hc
    revert this
    have e : (setAll (fun c : Component => c.name) [] (rawComma.pipelines.flatMap
      (refsOf (devDict rawComma)))) = [("drv:(a,b,c)", ⟨"drv:(a,b,c)", "two", "drv", "a", "b,c"⟩)] := by
      decide
    intro hm
    have hm' : (k, c) ∈ (setAll (fun c : Component => c.name) [] (rawComma.pipelines.flatMap
      (refsOf (devDict rawComma)))) := hm
    rw [e] at hm'
    simp only [List.mem_singleton, Prod.mk.injEq] at hm'
    rw [hm'.2]
    decide
  · exact ⟨⟨"p", [("main", "drv:(a,b,c)")]⟩, ⟨"drv:(a,b,c)", "two", "drv", "a", "b,c"⟩,
      "drv:(a,b,c)", by decide, by decide, by decide, by decide⟩

/-! ## C34 -/

/-- The name with the channel in place of the stars. -/
def fill (ch : List Char) : List Char → List Char
  | [] => []
  | c :: rest => (if c = '*' then ch else [c]) ++ fill ch rest

theorem replaceStars_eq (s ch : String) : replaceStars s ch = String.ofList (fill ch.toList s.toList) := by
  unfold replaceStars
  congr 1
  induction s.toList with
  | nil => rfl
  | cons c rest ih => rw [List.flatMap_cons, ih]; rfl

theorem fill_length (ch l : List Char) : (fill ch l).length + l.count '*' =
    l.length + l.count '*' * ch.length := by
  induction l with
  | nil => simp [fill]
  | cons c rest ih =>
    by_cases h : c = '*'
    · subst h
      simp only [fill, if_true, List.length_append, List.count_cons_self, List.length_cons,
        Nat.add_mul, Nat.one_mul]
      omega
    · simp only [fill, h, if_false, List.length_append, List.length_cons, List.length_nil,
        List.count_cons_of_ne (fun e => h e)]
      omega

theorem fill_inj {ch ch' l : List Char} (hs : '*' ∈ l) (h : fill ch l = fill ch' l) : ch = ch' := by
  have hlen : ch.length = ch'.length := by
    have h1 := fill_length ch l
    have h2 := fill_length ch' l
    rw [h] at h1
    have hc : 0 < l.count '*' := List.count_pos_iff.mpr hs
    have : l.count '*' * ch.length = l.count '*' * ch'.length := by omega
    exact Nat.eq_of_mul_eq_mul_left hc this
  induction l with
  | nil => cases hs
  | cons c rest ih =>
    by_cases hc : c = '*'
    · subst hc
      simp only [fill, if_true] at h
      exact List.append_inj_left h hlen
    · simp only [fill, hc, if_false, List.cons_append, List.nil_append, List.cons.injEq,
        true_and] at h
      rcases List.mem_cons.mp hs with e | hm
      · exact absurd e.symm hc
      · exact ih hm h

theorem fill_star_free {ch b : List Char} (hb : '*' ∉ b) : fill ch (b ++ ['*']) = b ++ ch := by
  induction b with
  | nil => simp [fill]
  | cons c rest ih =>
    simp only [List.mem_cons, not_or] at hb
    simp only [List.cons_append, fill, if_neg (Ne.symm hb.1), ih hb.2, List.nil_append]

/-- The entry makes a pipeline of this name. -/
def Makes (raw : RawFile) (pip : RawPip) (n : String) : Prop :=
  (IsWild pip.name → ∃ comp ∈ pip.devices, ∃ dev, Known raw comp.device dev ∧
    ∃ ch ∈ dev.channels, n = String.ofList (fill ch.toList pip.name.toList)) ∧
  (¬ IsWild pip.name → n = pip.name)

theorem makes_iff {raw : RawFile} {pip : RawPip} (hc : ConsistentPip raw pip) (n : String) :
    Makes raw pip n ↔ ∃ p ∈ pipsOf (devDict raw) pip, p.name = n := by
  unfold Makes pipsOf
  by_cases hw : IsWild pip.name
  · obtain ⟨comp, hd, _, dev, hk⟩ := hc.1 hw
    have hk' := (known_iff ..).mp hk
    rw [if_pos ((isWild_iff _).mp hw)]
    simp only [hw, true_imp_iff, not_true_eq_false, false_imp_iff, and_true, hd, hk']
    constructor
    · rintro ⟨c, hm, dev', hk2, ch, hch, rfl⟩
      rw [List.mem_singleton] at hm
      subst hm
      rw [known_iff, hk'] at hk2
      cases hk2
      exact ⟨_, List.mem_map.mpr ⟨ch, hch, rfl⟩, replaceStars_eq ..⟩
    · rintro ⟨p, hp, rfl⟩
      obtain ⟨ch, hch, rfl⟩ := List.mem_map.mp hp
      exact ⟨comp, by simp, dev, hk, ch, hch, replaceStars_eq ..⟩
  · rw [if_neg (fun h => hw ((isWild_iff _).mpr h))]
    simp only [hw, false_imp_iff, true_and, not_false_eq_true, true_imp_iff]
    constructor
    · rintro rfl; exact ⟨_, List.mem_singleton.mpr rfl, rfl⟩
    · rintro ⟨p, hp, rfl⟩
      rw [List.mem_singleton] at hp
      rw [hp]

/-- **C34**: an accepted entry whose name ends in `*` yields, for every channel of its device, the
pipeline with the channel in place of the star, with a single role bound to this channel's
component (unless a later entry of the file makes a pipeline of the same name); different
channels yield different pipelines; and the configuration has no other pipelines than those
made by its entries. -/
theorem C34_wildcards (raw : RawFile) (df : DeviceFile) (h : populateAttrs raw = .ok df) :
    (∀ pre pip post, raw.pipelines = pre ++ pip :: post → IsWild pip.name →
      ∃ comp dev, pip.devices = [comp] ∧ Known raw comp.device dev ∧
      (∀ ch ∈ dev.channels, ∀ n : String, n = String.ofList (fill ch.toList pip.name.toList) →
        (∀ q ∈ post, ¬ Makes raw q n) →
        Dict.get? df.pipelines n = some
          { name := n, components := [(comp.role, dev.driver ++ ":(" ++ dev.address ++ "," ++ ch ++ ")")] }) ∧
      (∀ ch ∈ dev.channels, ∀ ch' ∈ dev.channels,
        String.ofList (fill ch.toList pip.name.toList) =
          String.ofList (fill ch'.toList pip.name.toList) → ch = ch')) ∧
    (∀ n, (Dict.get? df.pipelines n).isSome = true ↔ ∃ pip ∈ raw.pipelines, Makes raw pip n) := by
  have hcons := (C35_accepted_iff_consistent raw).mp ⟨df, h⟩
  obtain ⟨_, h2, h3, _⟩ := populate_eq h
  refine ⟨?_, ?_⟩
  · intro pre pip post hsplit hw
    have hpip : pip ∈ raw.pipelines := by simp [hsplit]
    obtain ⟨comp, hd, _, dev, hk⟩ := (hcons pip hpip).1 hw
    have hk' := (known_iff ..).mp hk
    refine ⟨comp, dev, hd, hk, ?_, ?_⟩
    · intro ch hch n hn hpost
      rw [h3, hsplit, List.flatMap_append, List.flatMap_cons, setAll_append, setAll_append]
      have hw' := (isWild_iff _).mp hw
      have hnone : (post.flatMap (pipsOf (devDict raw))).reverse.find?
          (fun p : Pipeline => decide (p.name = n)) = none := by
        rw [List.find?_eq_none]
        intro p hp
        obtain ⟨q, hq, hp⟩ := List.mem_flatMap.mp (List.mem_reverse.mp hp)
        have := mt (makes_iff (hcons q (by simp [hsplit, hq])) n).mpr (hpost q hq)
        simp only [decide_eq_true_eq]
        intro e
        exact this ⟨p, hp, e⟩
      rw [get?_setAll, hnone]
      simp only
      rw [get?_setAll]
      have hps : pipsOf (devDict raw) pip = dev.channels.map (fun ch =>
          { name := replaceStars pip.name ch,
            components := [(comp.role, cmpName dev.driver dev.address ch)] }) := by
        unfold pipsOf
        rw [if_pos hw']
        simp only [hd, hk']
      cases hf : (pipsOf (devDict raw) pip).reverse.find?
          (fun p : Pipeline => decide (p.name = n)) with
      | none =>
        rw [List.find?_eq_none] at hf
        have := hf { name := replaceStars pip.name ch, components := [(comp.role, cmpName dev.driver dev.address ch)] } (by
          rw [List.mem_reverse, hps]
          exact List.mem_map.mpr ⟨ch, hch, rfl⟩)
        rw [hn, replaceStars_eq] at this
        simp at this
      | some p =>
        have hm := List.mem_reverse.mp (List.mem_of_find?_eq_some hf)
        have hpn : p.name = n := by simpa using List.find?_some hf
        rw [hps] at hm
        obtain ⟨ch', hch', rfl⟩ := List.mem_map.mp hm
        simp only at hpn
        have : ch' = ch := by
          rw [hn, replaceStars_eq] at hpn
          have h1 := congrArg String.toList hpn
          simp only [String.toList_ofList] at h1
          have hs : '*' ∈ pip.name.toList := by
            obtain ⟨b, hb⟩ := hw
            rw [hb]; simp
          exact String.toList_injective (fill_inj hs h1)
        subst this
        rw [hpn]
        rfl
    · intro ch _ ch' _ he
      have h1 := congrArg String.toList he
      simp only [String.toList_ofList] at h1
      have hs : '*' ∈ pip.name.toList := by
        obtain ⟨b, hb⟩ := hw
        rw [hb]; simp
      exact String.toList_injective (fill_inj hs h1)
  · intro n
    rw [h3]
    constructor
    · intro hs
      obtain ⟨p, hp⟩ := Option.isSome_iff_exists.mp hs
      obtain ⟨hm, hn⟩ := get?_setAll_mem hp
      obtain ⟨pip, hpip, hm⟩ := List.mem_flatMap.mp hm
      exact ⟨pip, hpip, (makes_iff (hcons pip hpip) n).mpr ⟨p, hm, hn⟩⟩
    · rintro ⟨pip, hpip, hm⟩
      obtain ⟨p, hp, hn⟩ := (makes_iff (hcons pip hpip) n).mp hm
      obtain ⟨y, _, _, hy⟩ := get?_setAll_isSome (key := fun p : Pipeline => p.name)
        (List.mem_flatMap.mpr ⟨pip, hpip, hp⟩)
      rw [← hn, hy]
      rfl

/-- For a name with one star, at its end, the channel simply replaces it. -/
theorem fill_base (base ch : String) (h : '*' ∉ base.toList) :
    String.ofList (fill ch.toList (base ++ "*").toList) = base ++ ch := by
  apply String.toList_injective
  simp only [String.toList_append, String.toList_ofList]
  exact fill_star_free h

example : IsWild "pip-*" ∧ String.ofList (fill "1".toList "pip-*".toList) = "pip-1" :=
  ⟨⟨"pip-", rfl⟩, rfl⟩

/-! ## C36 -/

/-- **C36** (partial): if different entries never make pipelines of the same name and no
ordinary entry names a role twice, every component belongs to a pipeline.  Missing: files
with repeated names or roles, whose replaced components remain (`C36_refuted`). -/
theorem C36_components_used_partial (raw : RawFile) (df : DeviceFile)
    (h : populateAttrs raw = .ok df)
    (hnames : ∀ pre pip post, raw.pipelines = pre ++ pip :: post → ∀ n, Makes raw pip n →
      ∀ q ∈ post, ¬ Makes raw q n)
    (hroles : ∀ pip ∈ raw.pipelines, (pip.devices.map (·.role)).Nodup) :
    ∀ k c, Dict.get? df.components k = some c →
      ∃ n p role, Dict.get? df.pipelines n = some p ∧ (role, k) ∈ p.components := by
  intro k c hc
  have hcons := (C35_accepted_iff_consistent raw).mp ⟨df, h⟩
  obtain ⟨hd, h2, h3, _⟩ := populate_eq h
  rw [h2] at hc
  obtain ⟨hm, hk⟩ := get?_setAll_mem hc
  obtain ⟨pip, hpip, hm⟩ := List.mem_flatMap.mp hm
  obtain ⟨pre, post, hsplit⟩ := List.append_of_mem hpip
  obtain ⟨role, dev, ch, hu, hch, he, _⟩ := refs_uses (hcons pip hpip) hm
  by_cases hw : IsWild pip.name
  · obtain ⟨comp, dev', hd', hk', hall, _⟩ := (C34_wildcards raw df h).1 pre pip post hsplit hw
    obtain ⟨comp2, hc2, hr2, hk2, _, _⟩ := hu
    rw [hd', List.mem_singleton] at hc2
    subst hc2
    have e : dev' = dev := by
      have a := (known_iff ..).mp hk'
      have b := (known_iff ..).mp hk2
      rw [a] at b
      exact Option.some.inj b
    subst e
    have := hall ch hch _ rfl (hnames pre pip post hsplit _ ((makes_iff (hcons pip hpip) _).mpr ?_))
    · refine ⟨_, _, comp2.role, this, ?_⟩
      rw [List.mem_singleton, ← hk, he]
      rfl
    · unfold pipsOf
      rw [if_pos ((isWild_iff _).mp hw)]
      simp only [hd', (known_iff ..).mp hk']
      exact ⟨_, List.mem_map.mpr ⟨ch, hch, rfl⟩, replaceStars_eq ..⟩
  · have hps : pipsOf (devDict raw) pip =
        [{ name := pip.name, components := Dict.ofList (rolesOf (devDict raw) pip.devices) }] := by
      unfold pipsOf
      rw [if_neg (fun h => hw ((isWild_iff _).mpr h))]
    have hmk : Makes raw pip pip.name :=
      (makes_iff (hcons pip hpip) _).mpr ⟨_, by rw [hps]; exact List.mem_singleton.mpr rfl, rfl⟩
    have hget : Dict.get? df.pipelines pip.name = some
        { name := pip.name, components := Dict.ofList (rolesOf (devDict raw) pip.devices) } := by
      rw [h3, hsplit, List.flatMap_append, List.flatMap_cons, setAll_append, setAll_append]
      have hnone : (post.flatMap (pipsOf (devDict raw))).reverse.find?
          (fun p : Pipeline => decide (p.name = pip.name)) = none := by
        rw [List.find?_eq_none]
        intro p hp
        obtain ⟨q, hq, hp⟩ := List.mem_flatMap.mp (List.mem_reverse.mp hp)
        have := mt (makes_iff (hcons q (by simp [hsplit, hq])) pip.name).mpr
          (hnames pre pip post hsplit _ hmk q hq)
        simp only [decide_eq_true_eq]
        intro e
        exact this ⟨p, hp, e⟩
      rw [get?_setAll, hnone]
      simp only
      rw [get?_setAll, hps]
      simp
    obtain ⟨comp, hcm, hr, hkn, _, hcc⟩ := hu
    refine ⟨_, _, comp.role, hget, ?_⟩
    have hkn' := (known_iff ..).mp hkn
    have hmem : (comp.role, k) ∈ rolesOf (devDict raw) pip.devices := by
      refine List.mem_filterMap.mpr ⟨comp, hcm, ?_⟩
      rw [hkn']
      simp only [Option.map_some, Option.some.injEq, Prod.mk.injEq, true_and]
      rw [← hk, he, hcc hw]
      rfl
    have hnd : (Dict.keys (rolesOf (devDict raw) pip.devices)).Nodup := by
      have hsub : List.Sublist (Dict.keys (rolesOf (devDict raw) pip.devices))
          (pip.devices.map (·.role)) := by
        unfold rolesOf Dict.keys
        generalize pip.devices = cs
        induction cs with
        | nil => simp
        | cons c cs ih =>
          rw [List.filterMap_cons]
          cases hg : Dict.get? (devDict raw) c.device with
          | none => exact List.Sublist.cons _ ih
          | some d => exact List.Sublist.cons₂ _ ih
      exact hsub.nodup (hroles pip hpip)
    show (comp.role, k) ∈ Dict.ofList (rolesOf (devDict raw) pip.devices)
    apply Dict.get?_some_mem
    rw [Dict.get?_ofList]
    cases hf : (rolesOf (devDict raw) pip.devices).reverse.find? (fun kv => decide (kv.1 = comp.role)) with
    | none =>
      rw [List.find?_eq_none] at hf
      have := hf _ (List.mem_reverse.mpr hmem)
      simp at this
    | some kv =>
      have hm1 := List.mem_reverse.mp (List.mem_of_find?_eq_some hf)
      have hkv : kv.1 = comp.role := by simpa using List.find?_some hf
      have a := Dict.get?_of_mem_nodup hnd (k := kv.1) (v := kv.2) hm1
      have b := Dict.get?_of_mem_nodup hnd hmem
      rw [hkv, b] at a
      exact a.symm

example : (∀ pip ∈ rawA.pipelines, (pip.devices.map (·.role)).Nodup) ∧
    (∀ pre pip post, rawA.pipelines = pre ++ pip :: post → ∀ n, Makes rawA pip n →
      ∀ q ∈ post, ¬ Makes rawA q n) := by
  refine ⟨by decide, ?_⟩
  intro pre pip post hs n hm q hq hmq
  have hcons := (C35_accepted_iff_consistent rawA).mp ⟨_, rfl⟩
  have hp : pip ∈ rawA.pipelines := by rw [hs]; simp
  have hqm : q ∈ rawA.pipelines := by rw [hs]; simp [hq]
  obtain ⟨x, hx, hxn⟩ := (makes_iff (hcons _ hp) n).mp hm
  obtain ⟨y, hy, hyn⟩ := (makes_iff (hcons _ hqm) n).mp hmq
  have key : ∀ a ∈ pipsOf (devDict rawA) rawA.pipelines[0],
      ∀ b ∈ pipsOf (devDict rawA) rawA.pipelines[1], a.name ≠ b.name := by decide
  match pre, hs with
  | [], hs =>
    cases hs
    rw [List.mem_singleton] at hq
    subst hq
    exact key x hx y hy (hxn.trans hyn.symm)
  | [_], hs => cases hs; cases hq
  | _ :: _ :: _, hs => simp [rawA] at hs

/-- An entry naming the role `main` twice. -/
def rawTwice : RawFile :=
  { devices := [⟨"dev", "drv", "addr", ["1", "2"], 1⟩],
    pipelines := [⟨"p", [⟨"main", "dev", "1"⟩, ⟨"main", "dev", "2"⟩]⟩] }

/-- **C36 is false of the code** for an accepted file that repeats a role. -/
theorem C36_refuted : ∃ raw df, populateAttrs raw = .ok df ∧
    ∃ k c, Dict.get? df.components k = some c ∧
      ∀ n p role, Dict.get? df.pipelines n = some p → (role, k) ∉ p.components := by
  refine ⟨rawTwice, _, rfl, "drv:(addr,1)", ⟨"drv:(addr,1)", "dev", "drv", "addr", "1"⟩,
    by decide, ?_⟩
  intro n p role hp
  have hm := Dict.get?_some_mem hp
  have e : (setAll (fun p : Pipeline => p.name) [] (rawTwice.pipelines.flatMap
      (pipsOf (devDict rawTwice)))) = [("p", ⟨"p", [("main", "drv:(addr,2)")]⟩)] := by decide
  have hm' : (n, p) ∈ (setAll (fun p : Pipeline => p.name) [] (rawTwice.pipelines.flatMap
      (pipsOf (devDict rawTwice)))) := hm
  rw [e] at hm'
  simp only [List.mem_singleton, Prod.mk.injEq] at hm'
  rw [hm'.2]
  simp

end Tomato.Props
