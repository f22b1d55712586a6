import Verif.Models
import Verif.Prog

/-!
# Parsing the device file

`DeviceFile.populate_attrs`, `/repo/src/tomato/models.py:168-235` (`Daemon.device_settings`,
`models.py:106-111`, is `mergeDriverSettings` in `Verif/Cmd.lean`).

Simplification: the YAML document is already read into records (`RawFile`); a missing key, which
is a `KeyError` in the code, cannot occur (`Verif/Docs.lean` starts from documents of any shape, and
`C115_exact` shows that exactly those which can be read into records are accepted).  Failing assertions and a `KeyError` inside the
validator both make `DeviceFile(filename=...)` raise, so no configuration is obtained.
-/

namespace Tomato

/-- An entry of `pip["devices"]`. -/
structure RawComp where
  role : String
  device : String
  channel : String
  deriving DecidableEq, Repr

/-- An entry of `jsdata["pipelines"]`. -/
structure RawPip where
  name : String
  devices : List RawComp
  deriving DecidableEq, Repr

/-- The YAML document, models.py:170-174. -/
structure RawFile where
  devices : List Device
  pipelines : List RawPip
  deriving DecidableEq, Repr

/-- `s.endswith("*")`, models.py:181. -/
def endsWithStar (s : String) : Bool := decide (s.toList.getLast? = some '*')

/-- `s.replace("*", ch)`, models.py:193: every star is replaced. -/
def replaceStars (s ch : String) : String :=
  String.ofList (s.toList.flatMap (fun c => if c = '*' then ch.toList else [c]))

/-- `f"{dev.driver}:({dev.address},{ch})"`, models.py:194 and 217. -/
def cmpName (driver address ch : String) : String :=
  driver ++ ":(" ++ address ++ "," ++ ch ++ ")"

/-- `Component(...)`, models.py:195-201 and 218-224. -/
def mkComp (dev : Device) (ch : String) : Component where
  name := cmpName dev.driver dev.address ch
  device := dev.name
  driver := dev.driver
  address := dev.address
  channel := ch

/-- `self.components[cname] = Component(...)`, models.py:195-201 and 218-224. -/
def addComp (df : DeviceFile) (dev : Device) (ch : String) : DeviceFile :=
  { df with components :=
      Dict.set df.components (cmpName dev.driver dev.address ch) (mkComp dev ch) }

/-- `self.pipelines[pname] = Pipeline(...)`, models.py:202-205 and 226-229. -/
def addPip (df : DeviceFile) (name : String) (cmps : Dict String String) : DeviceFile :=
  { df with pipelines := Dict.set df.pipelines name { name := name, components := cmps } }

/-- The loop over the channels of a wildcard pipeline, models.py:192-205. -/
def addWild (pname role : String) (dev : Device) : List String → DeviceFile → DeviceFile
  | [], df => df
  | ch :: rest, df =>
    addWild pname role dev rest
      (addPip (addComp df dev ch) (replaceStars pname ch)
        [(role, cmpName dev.driver dev.address ch)])

/-- The loop over the components of an ordinary pipeline, models.py:208-225. -/
def addRefs : List RawComp → DeviceFile → Dict String String →
    Except PyErr (DeviceFile × Dict String String)
  | [], df, cmps => .ok (df, cmps)
  | comp :: rest, df, cmps =>
    match Dict.get? df.devices comp.device with
    | none => .error .assertionError
    | some dev =>
      if comp.channel ∈ dev.channels then
        addRefs rest (addComp df dev comp.channel)
          (Dict.set cmps comp.role (cmpName dev.driver dev.address comp.channel))
      else .error .assertionError

/-- One turn of the loop over the pipelines, models.py:180-229.  The message of the second
assertion of a wildcard reads the misspelt key `comp['chanel']`: a `KeyError`. -/
def addPipeline (df : DeviceFile) (pip : RawPip) : Except PyErr DeviceFile :=
  if endsWithStar pip.name then
    match pip.devices with
    | [comp] =>
      match Dict.get? df.devices comp.device with
      | none => .error .assertionError
      | some dev =>
        if comp.channel = "each" then .ok (addWild pip.name comp.role dev dev.channels df)
        else .error .keyError
    | _ => .error .assertionError
  else
    match addRefs pip.devices df [] with
    | .error e => .error e
    | .ok (df', cmps) => .ok (addPip df' pip.name cmps)

/-- The loop over the pipelines, models.py:180-229. -/
def addPipelines : List RawPip → DeviceFile → Except PyErr DeviceFile
  | [], df => .ok df
  | pip :: rest, df =>
    match addPipeline df pip with
    | .error e => .error e
    | .ok df' => addPipelines rest df'

/-- `populate_attrs`, models.py:168-235.  `drivers_needed` is a python set; the order of the
`drivers` dictionary is therefore unspecified, here it is the order of the components. -/
def populateAttrs (raw : RawFile) : Except PyErr DeviceFile :=
  match addPipelines raw.pipelines
      { devices := Dict.ofList (raw.devices.map (fun d => (d.name, d))) } with
  | .error e => .error e
  | .ok df =>
    .ok { df with drivers := Dict.ofList ((Dict.values df.components).map
            (fun c => (c.driver, ({ name := c.driver } : Driver)))) }

/-! ## Lemmas -/

theorem Dict.keys_nodup_ofList {K V : Type} [DecidableEq K] (xs : List (K × V)) :
    (Dict.keys (Dict.ofList xs)).Nodup := by
  unfold Dict.ofList
  suffices ∀ (d : Dict K V), (Dict.keys d).Nodup →
      (Dict.keys (xs.foldl (fun d kv => Dict.set d kv.1 kv.2) d)).Nodup from
    this [] (by simp [Dict.keys])
  induction xs with
  | nil => intro d h; exact h
  | cons x xs ih => intro d h; exact ih _ (Dict.nodup_keys_set h _ _)

theorem Dict.get?_foldl_set {K V : Type} [DecidableEq K] (xs : List (K × V)) (d : Dict K V) (k : K) :
    Dict.get? (xs.foldl (fun d kv => Dict.set d kv.1 kv.2) d) k =
      match (xs.reverse.find? (fun kv => decide (kv.1 = k))) with
      | some kv => some kv.2
      | none => Dict.get? d k := by
  induction xs generalizing d with
  | nil => rfl
  | cons x xs ih =>
    simp only [List.foldl_cons, List.reverse_cons, List.find?_append, ih]
    cases h : xs.reverse.find? (fun kv => decide (kv.1 = k)) with
    | some kv => rfl
    | none =>
      simp only [Option.none_or, List.find?_cons, List.find?_nil, Dict.get?_set]
      by_cases hx : x.1 = k <;> simp [hx]

theorem Dict.get?_ofList {K V : Type} [DecidableEq K] (xs : List (K × V)) (k : K) :
    Dict.get? (Dict.ofList xs) k =
      (xs.reverse.find? (fun kv => decide (kv.1 = k))).map (·.2) := by
  unfold Dict.ofList
  rw [Dict.get?_foldl_set]
  cases xs.reverse.find? (fun kv => decide (kv.1 = k)) <;> rfl

@[simp] theorem addComp_devices (df : DeviceFile) (dev : Device) (ch : String) :
    (addComp df dev ch).devices = df.devices := rfl
@[simp] theorem addComp_pipelines (df : DeviceFile) (dev : Device) (ch : String) :
    (addComp df dev ch).pipelines = df.pipelines := rfl
@[simp] theorem addPip_devices (df : DeviceFile) (n : String) (c : Dict String String) :
    (addPip df n c).devices = df.devices := rfl
@[simp] theorem addPip_components (df : DeviceFile) (n : String) (c : Dict String String) :
    (addPip df n c).components = df.components := rfl

@[simp] theorem addWild_devices (n r : String) (dev : Device) (chs : List String)
    (df : DeviceFile) : (addWild n r dev chs df).devices = df.devices := by
  induction chs generalizing df with
  | nil => rfl
  | cons ch rest ih => simp [addWild, ih]

theorem addRefs_devices {cs : List RawComp} {df df' : DeviceFile} {m m' : Dict String String}
    (h : addRefs cs df m = .ok (df', m')) :
    df'.devices = df.devices ∧ df'.pipelines = df.pipelines := by
  induction cs generalizing df m with
  | nil => cases h; exact ⟨rfl, rfl⟩
  | cons c rest ih =>
    simp only [addRefs] at h
    split at h
    · cases h
    · split at h
      · have := ih h; exact this
      · cases h

theorem addPipeline_devices {pip : RawPip} {df df' : DeviceFile}
    (h : addPipeline df pip = .ok df') : df'.devices = df.devices := by
  unfold addPipeline at h
  split at h
  · split at h
    · split at h
      · cases h
      · split at h
        · cases h; simp
        · cases h
    · cases h
  · split at h
    · cases h
    · next hr => cases h; exact (addRefs_devices hr).1

theorem addPipelines_devices {ps : List RawPip} {df df' : DeviceFile}
    (h : addPipelines ps df = .ok df') : df'.devices = df.devices := by
  induction ps generalizing df with
  | nil => cases h; rfl
  | cons p rest ih =>
    simp only [addPipelines] at h
    split at h
    · cases h
    · next hp => rw [ih h, addPipeline_devices hp]

/-! The two loops as lists: the components referred to and the pipelines made by one entry. -/

/-- The components referred to by an entry. -/
def refsOf (D : Dict String Device) (pip : RawPip) : List Component :=
  if endsWithStar pip.name then
    match pip.devices with
    | [comp] =>
      match Dict.get? D comp.device with
      | some dev => dev.channels.map (mkComp dev)
      | none => []
    | _ => []
  else pip.devices.filterMap (fun comp =>
    (Dict.get? D comp.device).map (fun dev => mkComp dev comp.channel))

/-- The roles of an ordinary entry. -/
def rolesOf (D : Dict String Device) (cs : List RawComp) : List (String × String) :=
  cs.filterMap (fun comp => (Dict.get? D comp.device).map (fun dev =>
    (comp.role, cmpName dev.driver dev.address comp.channel)))

/-- The pipelines made by an entry. -/
def pipsOf (D : Dict String Device) (pip : RawPip) : List Pipeline :=
  if endsWithStar pip.name then
    match pip.devices with
    | [comp] =>
      match Dict.get? D comp.device with
      | some dev => dev.channels.map (fun ch =>
          { name := replaceStars pip.name ch,
            components := [(comp.role, cmpName dev.driver dev.address ch)] })
      | none => []
    | _ => []
  else [{ name := pip.name, components := Dict.ofList (rolesOf D pip.devices) }]

/-- Store all under their keys. -/
def setAll {V : Type} (key : V → String) (d : Dict String V) (xs : List V) : Dict String V :=
  xs.foldl (fun d x => Dict.set d (key x) x) d

theorem setAll_append {V : Type} (key : V → String) (d : Dict String V) (xs ys : List V) :
    setAll key d (xs ++ ys) = setAll key (setAll key d xs) ys := by
  simp [setAll]

theorem get?_setAll {V : Type} (key : V → String) (d : Dict String V) (xs : List V) (k : String) :
    Dict.get? (setAll key d xs) k =
      match xs.reverse.find? (fun x => decide (key x = k)) with
      | some x => some x
      | none => Dict.get? d k := by
  unfold setAll
  induction xs generalizing d with
  | nil => rfl
  | cons x xs ih =>
    simp only [List.foldl_cons, List.reverse_cons, List.find?_append, ih]
    cases h : xs.reverse.find? (fun x => decide (key x = k)) with
    | some kv => rfl
    | none =>
      simp only [Option.none_or, List.find?_cons, List.find?_nil, Dict.get?_set]
      by_cases hx : key x = k <;> simp [hx]

theorem get?_setAll_mem {V : Type} {key : V → String} {xs : List V} {k : String} {v : V}
    (h : Dict.get? (setAll key [] xs) k = some v) : v ∈ xs ∧ key v = k := by
  rw [get?_setAll] at h
  cases hf : xs.reverse.find? (fun x => decide (key x = k)) with
  | none => rw [hf] at h; cases h
  | some x =>
    rw [hf] at h
    cases h
    exact ⟨List.mem_reverse.mp (List.mem_of_find?_eq_some hf),
      by simpa using List.find?_some hf⟩

theorem get?_setAll_isSome {V : Type} {key : V → String} {xs : List V} {x : V}
    (h : x ∈ xs) : ∃ y ∈ xs, key y = key x ∧ Dict.get? (setAll key [] xs) (key x) = some y := by
  rw [get?_setAll]
  cases hf : xs.reverse.find? (fun y => decide (key y = key x)) with
  | none =>
    have := List.find?_eq_none.mp hf x (List.mem_reverse.mpr h)
    simp at this
  | some y =>
    exact ⟨y, List.mem_reverse.mp (List.mem_of_find?_eq_some hf),
      by simpa using List.find?_some hf, rfl⟩

theorem keys_nodup_setAll {V : Type} {key : V → String} {xs : List V} {d : Dict String V}
    (h : (Dict.keys d).Nodup) : (Dict.keys (setAll key d xs)).Nodup := by
  unfold setAll
  induction xs generalizing d with
  | nil => exact h
  | cons x xs ih => exact ih (Dict.nodup_keys_set h _ _)

theorem addWild_eq (n r : String) (dev : Device) (chs : List String) (df : DeviceFile) :
    addWild n r dev chs df = { df with
      components := setAll (·.name) df.components (chs.map (mkComp dev)),
      pipelines := setAll (·.name) df.pipelines (chs.map (fun ch =>
        ({ name := replaceStars n ch,
           components := [(r, cmpName dev.driver dev.address ch)] } : Pipeline))) } := by
  induction chs generalizing df with
  | nil => rfl
  | cons ch rest ih => rw [addWild, ih]; rfl

theorem addRefs_eq {cs : List RawComp} {df df' : DeviceFile} {m m' : Dict String String}
    (h : addRefs cs df m = .ok (df', m')) :
    df' = { df with components := setAll (·.name) df.components (cs.filterMap (fun comp =>
      (Dict.get? df.devices comp.device).map (fun dev => mkComp dev comp.channel))) } ∧
    m' = (rolesOf df.devices cs).foldl (fun d kv => Dict.set d kv.1 kv.2) m := by
  induction cs generalizing df m with
  | nil => cases h; exact ⟨rfl, rfl⟩
  | cons c rest ih =>
    simp only [addRefs] at h
    split at h
    · cases h
    · next dev hd =>
      split at h
      · obtain ⟨h1, h2⟩ := ih h
        simp only [addComp_devices] at h1 h2
        refine ⟨?_, ?_⟩
        · rw [h1, List.filterMap_cons, hd]; rfl
        · rw [h2]
          unfold rolesOf
          rw [List.filterMap_cons, hd]; rfl
      · cases h

theorem addPipeline_eq {pip : RawPip} {df df' : DeviceFile}
    (h : addPipeline df pip = .ok df') :
    df' = { df with components := setAll (·.name) df.components (refsOf df.devices pip),
                    pipelines := setAll (·.name) df.pipelines (pipsOf df.devices pip) } := by
  unfold addPipeline at h
  unfold refsOf pipsOf
  split at h
  · next hs =>
    rw [if_pos hs, if_pos hs]
    split at h
    · next comp hc =>
      split at h
      · cases h
      · next dev hd =>
        split at h
        · simp only [hd]
          cases h
          rw [addWild_eq]
        · cases h
    · cases h
  · next hs =>
    rw [if_neg hs, if_neg hs]
    split at h
    · cases h
    · next hr =>
      cases h
      obtain ⟨h1, h2⟩ := addRefs_eq hr
      rw [h1, h2]
      rfl

theorem addPipelines_eq {ps : List RawPip} {df df' : DeviceFile}
    (h : addPipelines ps df = .ok df') :
    df' = { df with components := setAll (·.name) df.components (ps.flatMap (refsOf df.devices)),
                    pipelines := setAll (·.name) df.pipelines (ps.flatMap (pipsOf df.devices)) } := by
  induction ps generalizing df with
  | nil => cases h; rfl
  | cons p rest ih =>
    simp only [addPipelines] at h
    split at h
    · cases h
    · next df1 hp =>
      have e := addPipeline_eq hp
      rw [ih h, addPipeline_devices hp, List.flatMap_cons, List.flatMap_cons, setAll_append,
        setAll_append, e]

/-- The devices as a dictionary, models.py:177. -/
def devDict (raw : RawFile) : Dict String Device :=
  Dict.ofList (raw.devices.map (fun d => (d.name, d)))

theorem populate_eq {raw : RawFile} {df : DeviceFile} (h : populateAttrs raw = .ok df) :
    df.devices = devDict raw ∧
    df.components = setAll (·.name) [] (raw.pipelines.flatMap (refsOf (devDict raw))) ∧
    df.pipelines = setAll (·.name) [] (raw.pipelines.flatMap (pipsOf (devDict raw))) ∧
    df.drivers = Dict.ofList ((Dict.values df.components).map
            (fun c => (c.driver, ({ name := c.driver } : Driver)))) := by
  unfold populateAttrs at h
  split at h
  · cases h
  · next df' hp =>
    cases h
    have := addPipelines_eq hp
    subst this
    exact ⟨rfl, rfl, rfl, rfl⟩

end Tomato
