import Verif.Docs
import Mathlib.Data.List.Forall2

/-!
# The configuration files as documents (C115, C116)

C115: a device file is accepted exactly if, read without converting anything, it is a consistent
description of pipelines; and then the configuration is the one described.

C116: settings accepted by the daemon contain what the daemon reads from them.
-/

namespace Tomato

namespace Props

open Docs

/-! ## The specification: reading a document -/

/-- The entry of a key (the keys of a mapping are different). -/
def Entry (es : List (Key × Val)) (k : String) (v : Val) : Prop :=
  ∃ pre post, es = pre ++ (.str k, v) :: post ∧ ∀ e ∈ pre, e.1 ≠ .str k

/-- There is no entry for the key. -/
def NoEntry (es : List (Key × Val)) (k : String) : Prop := ∀ e ∈ es, e.1 ≠ .str k

/-- The elements of a sequence; an empty mapping or an empty string may stand for an empty one. -/
inductive Items : Val → List Val → Prop
  | list (xs : List Val) : Items (.list xs) xs
  | emptyMap : Items (.map []) []
  | emptyStr : Items (.str "") []

/-- A number which is an integer, or a string or truth value that counts as one. -/
inductive Whole (strInt : String → Option Int) : Val → Int → Prop
  | int (i : Int) : Whole strInt (.int i) i
  | bool (b : Bool) : Whole strInt (.bool b) (if b then 1 else 0)
  | float (i : Int) : Whole strInt (.float (some i)) i
  | str {s : String} {i : Int} : strInt s = some i → Whole strInt (.str s) i

/-- The document describes the device.  Only `pollrate` may be given in another form, or left
out. -/
def ReadsDev (strInt : String → Option Int) (v : Val) (d : Device) : Prop :=
  ∃ es, v = .map es ∧ (∀ e ∈ es, ∃ s, e.1 = Key.str s) ∧
    Entry es "name" (.str d.name) ∧ Entry es "driver" (.str d.driver) ∧
    Entry es "address" (.str d.address) ∧ Entry es "channels" (.list (d.channels.map .str)) ∧
    (NoEntry es "pollrate" ∧ d.pollrate = 1 ∨
      ∃ p, Entry es "pollrate" p ∧ Whole strInt p d.pollrate)

/-- The document describes the component of a pipeline; `used`: the role is of any use. -/
def ReadsComp (used : Prop) (v : Val) (c : RawComp) : Prop :=
  ∃ es, v = .map es ∧ Entry es "device" (.str c.device) ∧ Entry es "channel" (.str c.channel) ∧
    (used → Entry es "role" (.str c.role))

/-- The document describes the entry for a pipeline.  The role is not needed in a wildcard for a
device without channels. -/
def ReadsPip (D : Dict String Device) (v : Val) (p : RawPip) : Prop :=
  ∃ es ds comps, v = .map es ∧ Entry es "name" (.str p.name) ∧ Entry es "devices" ds ∧
    Items ds comps ∧
    List.Forall₂ (fun v c => ReadsComp (p.name.toList.getLast? = some '*' →
      ∃ dev, D.get? c.device = some dev ∧ dev.channels ≠ []) v c) comps p.devices

/-- The document has the list of items under the key, or nothing at all. -/
def Section (es : List (Key × Val)) (k : String) (vs : List Val) : Prop :=
  NoEntry es k ∧ vs = [] ∨ ∃ v, Entry es k v ∧ Items v vs

/-- The document describes the device file. -/
def ReadsFile (strInt : String → Option Int) (doc : Val) (raw : RawFile) : Prop :=
  ∃ es dvs pvs, doc = .map es ∧ Section es "devices" dvs ∧ Section es "pipelines" pvs ∧
    List.Forall₂ (ReadsDev strInt) dvs raw.devices ∧
    List.Forall₂ (ReadsPip (devDict raw)) pvs raw.pipelines

/-! ## Lemmas -/

theorem lookup_none {es : List (Key × Val)} {k : String} :
    lookup k es = none ↔ NoEntry es k := by
  induction es with
  | nil => simp [lookup, NoEntry]
  | cons e rest ih =>
    obtain ⟨k', v⟩ := e
    unfold lookup
    by_cases h : k' = .str k
    · simp [h, NoEntry]
    · rw [if_neg h, ih]
      simp [NoEntry, h]

theorem lookup_some {es : List (Key × Val)} {k : String} {v : Val} :
    lookup k es = some v ↔ Entry es k v := by
  induction es with
  | nil => simp [lookup, Entry]
  | cons e rest ih =>
    obtain ⟨k', w⟩ := e
    unfold lookup
    by_cases h : k' = .str k
    · rw [if_pos h]
      constructor
      · intro h1; cases h1
        exact ⟨[], rest, by simp [h], by simp⟩
      · rintro ⟨pre, post, h1, h2⟩
        cases pre with
        | nil =>
          simp only [List.nil_append, List.cons.injEq, Prod.mk.injEq] at h1
          rw [h1.1.2]
        | cons x pre =>
          simp only [List.cons_append, List.cons.injEq] at h1
          exact absurd (by rw [← h1.1]; exact h) (h2 x (by simp))
    · rw [if_neg h, ih]
      constructor
      · rintro ⟨pre, post, h1, h2⟩
        exact ⟨(k', w) :: pre, post, by simp [h1], by
          intro e he
          rcases List.mem_cons.mp he with rfl | he
          · exact h
          · exact h2 e he⟩
      · rintro ⟨pre, post, h1, h2⟩
        cases pre with
        | nil =>
          simp only [List.nil_append, List.cons.injEq, Prod.mk.injEq] at h1
          exact absurd h1.1.1 h
        | cons x pre =>
          simp only [List.cons_append, List.cons.injEq] at h1
          exact ⟨pre, post, h1.2, fun e he => h2 e (List.mem_cons_of_mem _ he)⟩

theorem getItem_ok {v w : Val} {k : String} :
    getItem v k = .ok w ↔ ∃ es, v = .map es ∧ Entry es k w := by
  cases v with
  | map es =>
    simp only [getItem, Val.map.injEq, exists_eq_left', ← lookup_some]
    cases h : lookup k es <;> simp
  | _ => simp [getItem]

theorem asInt_some {si : String → Option Int} {v : Val} {i : Int} :
    asInt si v = some i ↔ Whole si v i := by
  constructor
  · intro h
    cases v with
    | int j => cases h; exact .int _
    | bool b => cases h; exact .bool _
    | float w => simp only [asInt] at h; subst h; exact .float _
    | str s => exact .str h
    | _ => cases h
  · intro h
    cases h with
    | int | bool | float => rfl
    | str h => exact h

theorem asStrs_some {vs : List Val} {ss : List String} :
    asStrs vs = some ss ↔ vs = ss.map .str := by
  induction vs generalizing ss with
  | nil => cases ss <;> simp [asStrs]
  | cons v vs ih =>
    cases v with
    | str s =>
      simp only [asStrs, Option.map_eq_some_iff]
      constructor
      · rintro ⟨a, ha, rfl⟩
        simp [ih.mp ha]
      · intro h
        cases ss with
        | nil => cases h
        | cons x xs =>
          simp only [List.map_cons, List.cons.injEq, Val.str.injEq] at h
          exact ⟨xs, ih.mpr h.2, by rw [h.1]⟩
    | _ => cases ss <;> simp [asStrs]

theorem asStr_some {v : Val} {s : String} : asStr v = some s ↔ v = .str s := by
  cases v <;> simp [asStr]

theorem asSeq_some {v : Val} {ss : List String} :
    asSeq v = some ss ↔ v = .list (ss.map .str) := by
  cases v with
  | list xs => simp [asSeq, asStrs_some]
  | _ => simp [asSeq]

theorem strKeys_iff {es : List (Key × Val)} :
    strKeys es = true ↔ ∀ e ∈ es, ∃ s, e.1 = Key.str s := by
  unfold strKeys
  rw [List.all_eq_true]
  constructor
  · intro h e he
    have := h e he
    cases hk : e.1 with
    | str s => exact ⟨s, rfl⟩
    | other => simp [hk] at this
  · intro h e he
    obtain ⟨s, hs⟩ := h e he
    simp [hs]

theorem bind_asStr {o : Option Val} {s : String} :
    o.bind asStr = some s ↔ o = some (.str s) := by
  cases o <;> simp [asStr_some]

theorem bind_asSeq {o : Option Val} {ss : List String} :
    o.bind asSeq = some ss ↔ o = some (.list (ss.map .str)) := by
  cases o <;> simp [asSeq_some]

theorem mkDevice_ok {si : String → Option Int} {es : List (Key × Val)} {d : Device} :
    mkDevice si es = .ok d ↔ ReadsDev si (.map es) d := by
  unfold mkDevice ReadsDev
  simp only [Val.map.injEq, exists_eq_left', ← strKeys_iff, ← lookup_some, ← lookup_none,
    ← asInt_some]
  by_cases hk : strKeys es = true
  · rw [if_pos hk]
    simp only [hk, true_and]
    rw [← bind_asStr, ← bind_asStr, ← bind_asStr, ← bind_asSeq]
    have hp : (lookup "pollrate" es = none ∧ d.pollrate = 1 ∨
        ∃ p, lookup "pollrate" es = some p ∧ asInt si p = some d.pollrate) ↔
        pollOf si es = some d.pollrate := by
      unfold pollOf
      cases h : lookup "pollrate" es with
      | none => simp [eq_comm]
      | some v => simp
    rw [hp]
    generalize (lookup "name" es).bind asStr = a
    generalize (lookup "driver" es).bind asStr = b
    generalize (lookup "address" es).bind asStr = c
    generalize (lookup "channels" es).bind asSeq = x
    generalize pollOf si es = y
    cases a <;> cases b <;> cases c <;> cases x <;> cases y <;> simp
    obtain ⟨n, dr, ad, ch, pr⟩ := d
    simp
  · rw [if_neg hk]
    simp [hk]

theorem readDevice_ok {si : String → Option Int} {v : Val} {d : Device} :
    readDevice si v = .ok d ↔ ReadsDev si v d := by
  cases v with
  | map es =>
    simp only [readDevice]
    cases h : lookup "name" es with
    | none =>
      simp only [reduceCtorEq, false_iff]
      rintro ⟨es', h1, _, h2, _⟩
      cases h1
      rw [← lookup_some, h] at h2
      cases h2
    | some w => exact mkDevice_ok
  | _ =>
    simp only [readDevice, reduceCtorEq, false_iff]
    rintro ⟨es', h1, _⟩
    cases h1

theorem readDevices_ok {si : String → Option Int} {vs : List Val} {ds : List Device} :
    readDevices si vs = .ok ds ↔ List.Forall₂ (ReadsDev si) vs ds := by
  induction vs generalizing ds with
  | nil => cases ds <;> simp [readDevices]
  | cons v vs ih =>
    unfold readDevices
    cases h : readDevice si v with
    | error e =>
      simp only [reduceCtorEq, false_iff]
      rintro (_ | ⟨h1, h2⟩)
      rw [← readDevice_ok, h] at h1
      cases h1
    | ok d =>
      cases h' : readDevices si vs with
      | error e =>
        simp only [reduceCtorEq, false_iff]
        rintro (_ | ⟨h1, h2⟩)
        rw [← ih, h'] at h2
        cases h2
      | ok ds' =>
        simp only [Except.ok.injEq]
        constructor
        · rintro rfl
          exact .cons (readDevice_ok.mp h) (ih.mp h')
        · rintro (_ | ⟨h1, h2⟩)
          rw [← readDevice_ok, h] at h1
          rw [← ih, h'] at h2
          cases h1; cases h2; rfl

theorem inKeys_ok {α : Type} {v : Val} {D : Dict String α} {a : α} :
    inKeys v D = .ok (some a) ↔ ∃ s, v = .str s ∧ D.get? s = some a := by
  cases v <;> simp [inKeys, hashable]

/-- A bad role is not forgotten. -/
theorem refLoop_bad {cs : List Val} {df df' : DeviceFile} {m m' : Dict String String} {b : Bool}
    (h : refLoop cs df m true = .ok (df', m', b)) : b = true := by
  induction cs generalizing df m with
  | nil => cases h; rfl
  | cons c cs ih =>
    unfold refLoop at h
    split at h <;> try cases h
    split at h <;> try cases h
    split at h <;> try cases h
    · split at h
      · split at h <;> try cases h
        · exact ih h
        · split at h
          · exact ih h
          · cases h
      · cases h

theorem refLoop_ok {cs : List Val} {df df' : DeviceFile} {m m' : Dict String String} :
    refLoop cs df m false = .ok (df', m', false) ↔
      ∃ rs, List.Forall₂ (ReadsComp True) cs rs ∧ addRefs rs df m = .ok (df', m') := by
  induction cs generalizing df m with
  | nil =>
    simp only [refLoop, Except.ok.injEq, Prod.mk.injEq, and_true, List.forall₂_nil_left_iff,
      exists_eq_left, addRefs]
  | cons c cs ih =>
    constructor
    · intro h
      unfold refLoop at h
      split at h
      · cases h
      next d hd =>
      split at h
      · cases h
      · cases h
      next dev hdev =>
      obtain ⟨dn, rfl, hdn⟩ := inKeys_ok.mp hdev
      split at h
      · cases h
      · next ch hch =>
        split at h
        · next hmem =>
          split at h
          · cases h
          · next role hrole =>
            obtain ⟨rs, h1, h2⟩ := ih.mp h
            obtain ⟨es, rfl, he⟩ := getItem_ok.mp hd
            obtain ⟨es', e1, hc⟩ := getItem_ok.mp hch
            cases e1
            obtain ⟨es', e1, hr⟩ := getItem_ok.mp hrole
            cases e1
            refine ⟨{ role := role, device := dn, channel := ch } :: rs,
              .cons ⟨_, rfl, he, hc, fun _ => hr⟩ h1, ?_⟩
            simp only [addRefs, hdn, hmem, if_true, h2]
          · split at h
            · have := refLoop_bad h
              cases this
            · cases h
        · cases h
      · cases h
    · rintro ⟨rs, h1, h2⟩
      cases h1 with
      | @cons _ r _ rs h1 h1' =>
        obtain ⟨es, rfl, he, hc, hr⟩ := h1
        have hd := getItem_ok.mpr ⟨es, rfl, he⟩
        have hch := getItem_ok.mpr ⟨es, rfl, hc⟩
        have hrole := getItem_ok.mpr ⟨es, rfl, hr trivial⟩
        simp only [addRefs] at h2
        cases hdn : Dict.get? df.devices r.device with
        | none => rw [hdn] at h2; cases h2
        | some dev =>
          rw [hdn] at h2
          simp only at h2
          split at h2
          · next hmem =>
            simp only [refLoop, hd, hch, hrole, inKeys, hdn, hmem, if_true]
            exact ih.mpr ⟨rs, h1', h2⟩
          · cases h2

theorem wildLoop_ok {comp : Val} {pname : String} {dev : Device} {chs : List String}
    {df df' : DeviceFile} :
    wildLoop comp pname dev chs df = .ok df' ↔
      ∃ role, (chs ≠ [] → getItem comp "role" = .ok (.str role)) ∧
        addWild pname role dev chs df = df' := by
  induction chs generalizing df with
  | nil => simp [wildLoop, addWild]
  | cons ch chs ih =>
    constructor
    · intro h
      unfold wildLoop at h
      split at h
      · cases h
      · next role hr =>
        obtain ⟨role', h1, h2⟩ := ih.mp h
        refine ⟨role, fun _ => hr, ?_⟩
        rw [addWild, ← h2]
        cases chs with
        | nil => rfl
        | cons c cs =>
          have := h1 (by simp)
          rw [hr] at this
          cases this; rfl
      · cases h
    · rintro ⟨role, h1, h2⟩
      unfold wildLoop
      rw [h1 (by simp)]
      simp only
      rw [ih]
      exact ⟨role, fun _ => h1 (by simp), h2⟩

theorem wildEntry_ok {comp : Val} {pname : String} {df df' : DeviceFile}
    (hs : endsWithStar pname = true) :
    wildEntry comp pname df = .ok df' ↔
      ∃ c, ReadsComp (∃ dev, df.devices.get? c.device = some dev ∧ dev.channels ≠ []) comp c ∧
        addPipeline df { name := pname, devices := [c] } = .ok df' := by
  constructor
  · intro h
    unfold wildEntry at h
    split at h
    · cases h
    next d hd =>
    split at h
    · cases h
    · cases h
    next dev hdev =>
    obtain ⟨dn, rfl, hdn⟩ := inKeys_ok.mp hdev
    split at h
    · cases h
    next c hc =>
    split at h
    · next heach =>
      rw [asStr_some] at heach
      subst heach
      obtain ⟨role, h1, h2⟩ := wildLoop_ok.mp h
      obtain ⟨es, rfl, he⟩ := getItem_ok.mp hd
      obtain ⟨es', e1, hc⟩ := getItem_ok.mp hc
      cases e1
      refine ⟨{ role := role, device := dn, channel := "each" }, ⟨es, rfl, he, hc, ?_⟩, ?_⟩
      · rintro ⟨dev', hd', hne⟩
        rw [hdn] at hd'
        cases hd'
        obtain ⟨es', e1, hr⟩ := getItem_ok.mp (h1 hne)
        cases e1
        exact hr
      · simp only [addPipeline, hs, if_true, hdn, h2]
    · split at h <;> cases h
  · rintro ⟨c, ⟨es, rfl, he, hc, hr⟩, h⟩
    simp only [addPipeline, hs, if_true] at h
    split at h
    · cases h
    · next dev hdn =>
      split at h
      · next heach =>
        unfold wildEntry
        rw [getItem_ok.mpr ⟨es, rfl, he⟩, getItem_ok.mpr ⟨es, rfl, hc⟩]
        simp only [inKeys, hdn, heach, asStr, if_true]
        rw [wildLoop_ok]
        refine ⟨c.role, fun hne => getItem_ok.mpr ⟨es, rfl, hr ⟨dev, hdn, hne⟩⟩, ?_⟩
        cases h; rfl
      · cases h

theorem iter_items {v : Val} {vs : List Val} (h : Items v vs) : iter v = .ok vs := by
  cases h <;> rfl

/-- If the elements are mappings, they are those of a sequence. -/
theorem items_of_iter {v : Val} {vs : List Val} (h : iter v = .ok vs)
    (hm : ∀ x ∈ vs, ∃ es, x = .map es) : Items v vs := by
  cases v with
  | list xs => cases h; exact .list _
  | map es =>
    cases h
    cases es with
    | nil => exact .emptyMap
    | cons e es =>
      obtain ⟨es', h⟩ := hm e.1.val (by simp)
      cases hk : e.1 <;> rw [hk] at h <;> cases h
  | str s =>
    simp only [iter, Except.ok.injEq] at h
    subst h
    cases hs : s.toList with
    | nil =>
      have : s = "" := by rw [← String.ofList_toList (s := s), hs]
      subst this; exact .emptyStr
    | cons c cs =>
      obtain ⟨es', h⟩ := hm (.str (String.ofList [c])) (by simp [hs])
      cases h
  | _ => cases h

theorem forall₂_maps {α : Type} {R : Val → α → Prop} (hR : ∀ v a, R v a → ∃ es, v = .map es)
    {vs : List Val} {as : List α} (h : List.Forall₂ R vs as) :
    ∀ x ∈ vs, ∃ es, x = .map es := by
  induction h with
  | nil => simp
  | cons h _ ih =>
    intro x hx
    rcases List.mem_cons.mp hx with rfl | hx
    · exact hR _ _ h
    · exact ih x hx

theorem star_iff {s : String} : endsWithStar s = true ↔ s.toList.getLast? = some '*' := by
  simp [endsWithStar]

theorem readPipeline_ok {v : Val} {df df' : DeviceFile} :
    readPipeline df v = .ok df' ↔
      ∃ p, ReadsPip df.devices v p ∧ addPipeline df p = .ok df' := by
  constructor
  · intro h
    unfold readPipeline at h
    split at h
    · cases h
    · next name hn =>
      obtain ⟨es, rfl, hname⟩ := getItem_ok.mp hn
      split at h
      · cases h
      next ds hds =>
      obtain ⟨es', e1, hds⟩ := getItem_ok.mp hds
      cases e1
      split at h
      · cases h
      next comps hit =>
      split at h
      · next hs =>
        split at h
        · next comp =>
          obtain ⟨c, hc, h⟩ := (wildEntry_ok hs).mp h
          refine ⟨{ name := name, devices := [c] }, ⟨es, ds, [comp], rfl, hname, hds, ?_, ?_⟩, h⟩
          · apply items_of_iter hit
            intro x hx
            rw [List.mem_singleton] at hx
            subst hx
            obtain ⟨es, rfl, _⟩ := hc
            exact ⟨es, rfl⟩
          · refine .cons ?_ .nil
            obtain ⟨es, h1, h2, h3, h4⟩ := hc
            exact ⟨es, h1, h2, h3, fun hu => h4 (hu (star_iff.mp hs))⟩
        · cases h
      · next hs =>
        split at h
        · cases h
        next df1 cmps bad hr =>
        split at h
        · cases h
        · next hb =>
          have hb : bad = false := by cases bad <;> simp_all
          subst hb
          obtain ⟨rs, h1, h2⟩ := refLoop_ok.mp hr
          cases h
          refine ⟨{ name := name, devices := rs }, ⟨es, ds, comps, rfl, hname, hds, ?_, ?_⟩, ?_⟩
          · exact items_of_iter hit
              (forall₂_maps (fun v a ⟨es, h, _⟩ => ⟨es, h⟩) h1)
          · refine List.Forall₂.imp ?_ h1
            rintro a b ⟨es, h1, h2, h3, h4⟩
            exact ⟨es, h1, h2, h3, fun _ => h4 trivial⟩
          · simp only [addPipeline, hs, h2]
            rfl
    · cases h
  · rintro ⟨p, ⟨es, ds, comps, rfl, hn, hds, hit, hall⟩, h⟩
    unfold readPipeline
    rw [getItem_ok.mpr ⟨es, rfl, hn⟩, getItem_ok.mpr ⟨es, rfl, hds⟩]
    simp only [iter_items hit]
    by_cases hs : endsWithStar p.name = true
    · rw [if_pos hs]
      obtain ⟨pn, pd⟩ := p
      have hlen : ∃ c, pd = [c] := by
        simp only [addPipeline, hs, if_true] at h
        split at h
        · next c => exact ⟨_, rfl⟩
        · cases h
      obtain ⟨c, rfl⟩ := hlen
      cases hall with
      | @cons comp _ _ _ h1 h2 =>
        cases h2
        simp only
        rw [wildEntry_ok hs]
        refine ⟨c, ?_, h⟩
        obtain ⟨es, h1, h2, h3, h4⟩ := h1
        exact ⟨es, h1, h2, h3, fun hu => h4 (fun _ => hu)⟩
    · rw [if_neg hs]
      simp only [addPipeline, hs] at h
      cases hr : addRefs p.devices df [] with
      | error e => rw [hr] at h; cases h
      | ok x =>
        obtain ⟨df1, cmps⟩ := x
        rw [hr] at h
        have : refLoop comps df [] false = .ok (df1, cmps, false) := by
          rw [refLoop_ok]
          refine ⟨p.devices, List.Forall₂.imp ?_ hall, hr⟩
          rintro a b ⟨es, h1, h2, h3, h4⟩
          exact ⟨es, h1, h2, h3, fun _ => h4 (fun h' => absurd (star_iff.mpr h') hs)⟩
        rw [this]
        exact h

theorem readPipelines_ok {vs : List Val} {df df' : DeviceFile} :
    readPipelines vs df = .ok df' ↔
      ∃ ps, List.Forall₂ (ReadsPip df.devices) vs ps ∧ addPipelines ps df = .ok df' := by
  induction vs generalizing df with
  | nil => simp [readPipelines, addPipelines]
  | cons v vs ih =>
    unfold readPipelines
    constructor
    · intro h
      split at h
      · cases h
      next df1 h1 =>
      obtain ⟨p, hp, h1⟩ := readPipeline_ok.mp h1
      obtain ⟨ps, hps, h2⟩ := ih.mp h
      rw [addPipeline_devices h1] at hps
      exact ⟨p :: ps, .cons hp hps, by simp only [addPipelines, h1, h2]⟩
    · rintro ⟨_, hall, h⟩
      cases hall with
      | @cons _ p _ ps hp hps =>
        simp only [addPipelines] at h
        split at h
        · cases h
        next df1 h1 =>
        rw [readPipeline_ok.mpr ⟨p, hp, h1⟩]
        simp only
        rw [ih]
        exact ⟨ps, by rw [addPipeline_devices h1]; exact hps, h⟩

theorem section_iff {es : List (Key × Val)} {k : String} {vs : List Val}
    (hm : ∀ x ∈ vs, ∃ es, x = .map es) :
    iter (getOr k es) = .ok vs ↔ Section es k vs := by
  unfold Section getOr
  simp only [← lookup_none, ← lookup_some]
  cases h : lookup k es with
  | none => simp [iter, eq_comm]
  | some v =>
    simp only [Option.getD_some, reduceCtorEq, false_and, Option.some.injEq, exists_eq_left',
      false_or]
    exact ⟨fun h => items_of_iter h hm, iter_items⟩

/-- **C115**: the device file is accepted exactly if it describes a consistent set of devices and
pipelines, all names, addresses, channels and roles being strings; and the configuration is the one
described. -/
theorem C115_exact {si : String → Option Int} {doc : Val} {df : DeviceFile} :
    readFile si doc = .ok df ↔ ∃ raw, ReadsFile si doc raw ∧ populateAttrs raw = .ok df := by
  constructor
  · intro h
    unfold readFile at h
    split at h
    · next es =>
      split at h
      · cases h
      next dvs hdv =>
      split at h
      · cases h
      next devs hdevs =>
      split at h
      · cases h
      next pvs hpv =>
      split at h
      · cases h
      next df1 hp =>
      cases h
      rw [readDevices_ok] at hdevs
      obtain ⟨ps, hps, h1⟩ := readPipelines_ok.mp hp
      refine ⟨{ devices := devs, pipelines := ps }, ⟨es, dvs, pvs, rfl, ?_, ?_, hdevs, hps⟩, ?_⟩
      · exact (section_iff (forall₂_maps (fun v a ⟨es, h, _⟩ => ⟨es, h⟩) hdevs)).mp hdv
      · exact (section_iff (forall₂_maps (fun v a ⟨es, _, _, h, _⟩ => ⟨es, h⟩) hps)).mp hpv
      · simp only [populateAttrs, h1]
    · cases h
  · rintro ⟨raw, ⟨es, dvs, pvs, rfl, hdv, hpv, hdevs, hps⟩, h⟩
    unfold populateAttrs at h
    split at h
    · cases h
    next df1 h1 =>
    cases h
    unfold readFile
    simp only
    rw [(section_iff (forall₂_maps (fun v a ⟨es, h, _⟩ => ⟨es, h⟩) hdevs)).mpr hdv,
      (section_iff (forall₂_maps (fun v a ⟨es, _, _, h, _⟩ => ⟨es, h⟩) hps)).mpr hpv]
    simp only [readDevices_ok.mpr hdevs]
    have : readPipelines pvs
        { devices := Dict.ofList (raw.devices.map (fun d => (d.name, d))) } = .ok df1 := by
      rw [readPipelines_ok]
      exact ⟨raw.pipelines, hps, h1⟩
    rw [this]

/-! Examples: the device file written by `tomato init`, and files with a number as channel, a rate
which is no integer, a missing section. -/

/-- `devices.yml`, tomato/__init__.py:430-445, with the given channels, `pollrate` and role. -/
def initDevs (chs : List Val) (poll : Val) (role : Val) : Val :=
  .map [(.str "devices", .list [.map [(.str "name", .str "dev-counter"),
      (.str "driver", .str "example_counter"), (.str "address", .str "example-addr"),
      (.str "channels", .list chs), (.str "pollrate", poll)]]),
    (.str "pipelines", .list [.map [(.str "name", .str "pip-counter"),
      (.str "devices", .list [.map [(.str "role", role), (.str "device", .str "dev-counter"),
        (.str "channel", .str "1")]])]])]

/-- Its component. -/
def initComp : Component where
  name := "example_counter:(example-addr,1)"
  device := "dev-counter"
  driver := "example_counter"
  address := "example-addr"
  channel := "1"

/-- The configuration described by it. -/
def initConf : DeviceFile where
  components := [("example_counter:(example-addr,1)", initComp)]
  devices := [("dev-counter", ⟨"dev-counter", "example_counter", "example-addr", ["1"], 1⟩)]
  drivers := [("example_counter", ⟨"example_counter", []⟩)]
  pipelines := [("pip-counter", ⟨"pip-counter", [("counter", "example_counter:(example-addr,1)")]⟩)]

/-- No string is a number. -/
def noInt : String → Option Int := fun _ => none

example : readFile noInt (initDevs [.str "1"] (.float (some 1)) (.str "counter")) = .ok initConf := by
  decide +kernel
example : readFile noInt (initDevs [.int 1] (.float (some 1)) (.str "counter")) =
    .error .validationError := by decide +kernel
example : readFile noInt (initDevs [.str "1"] (.float none) (.str "counter")) =
    .error .validationError := by decide +kernel
example : readFile noInt (initDevs [.str "1"] (.int 1) (.int 3)) = .error .validationError := by
  decide +kernel
example : readFile noInt (.map []) = .ok {} := by decide +kernel
example : readFile noInt (.map [(.str "pipelines", .null)]) = .error .typeError := by decide +kernel
example : readFile noInt .null = .error .attributeError := by decide +kernel

/-! ## Settings: the specification -/

/-- What is found in nested mappings under a path of keys. -/
inductive At : Val → List String → Val → Prop
  | here (v : Val) : At v [] v
  | under {es : List (Key × Val)} {k : String} {ks : List String} {v w : Val} :
      Entry es k v → At v ks w → At (.map es) (k :: ks) w

/-- There is a string under the path. -/
def HasStr (s : Val) (path : List String) : Prop := ∃ p, At s path (.str p)

/-- There is a table under the path. -/
def HasTable (s : Val) (path : List String) : Prop := ∃ es, At s path (.map es)

/-- The settings are complete: all entries read by the daemon are there, and the settings of drivers
are tables. -/
structure FullSettings (s : Val) : Prop where
  dbpath : HasStr s ["jobs", "dbpath"]
  storage : HasStr s ["jobs", "storage"]
  logdir : HasStr s ["logdir"]
  repositories : HasTable s ["repositories"]
  drivers : ∀ es, At s ["drivers"] (.map es) → ∀ e ∈ es, ∃ t, e.2 = .map t

/-- The elements that python finds in a value. -/
inductive Elems : Val → List Val → Prop
  | list (xs : List Val) : Elems (.list xs) xs
  | map (es : List (Key × Val)) : Elems (.map es) (es.map (fun e => e.1.val))
  | str (t : String) : Elems (.str t) (t.toList.map (fun c => .str (String.ofList [c])))

/-- `dict.update` takes it: a table, or something made of pairs whose first parts can be keys. -/
inductive Updates : Val → Prop
  | table (es : List (Key × Val)) : Updates (.map es)
  | pairs {v : Val} {xs : List Val} : Elems v xs →
      (∀ x ∈ xs, ∃ k w, Elems x [k, w] ∧ (∀ l, k ≠ .list l) ∧ (∀ es, k ≠ .map es)) → Updates v

/-- There is a section for drivers, and what it says about the drivers of the device file can be put
into their settings. -/
def DriversFit (s : Val) (df : DeviceFile) : Prop :=
  ∃ es, At s ["drivers"] (.map es) ∧
    ∀ drv v, (Key.str drv, v) ∈ es → (∃ d, Dict.get? df.drivers drv = some d) → Updates v

/-- No thread of the daemon has been ended by an exception. -/
def Sound (s : Srv) : Prop :=
  (∀ e, s.main ≠ .died e) ∧ s.jm = none ∧ s.pm = none ∧ s.dm = none

/-- Executions: `K` restricts the settings that are found when they are read and can be
processed. -/
inductive StepsDoc (si : String → Option Int) (K : Val → Prop) : Srv → Srv → Prop
  | refl (s : Srv) : StepsDoc si K s s
  | tail {s s' s'' : Srv} {ev : Ev} {a : Answer} : StepsDoc si K s s' →
      step si ev s' = some (s'', a) →
      (∀ f r ns df, ev = .reload f r → mkDaemon si f = .ok (ns, df) → K ns) →
      StepsDoc si K s s''

/-! ## Lemmas -/

theorem readJobs_ok {s : Val} {k p : String} :
    readJobs k s = .ok p ↔ At s ["jobs", k] (.str p) := by
  constructor
  · intro h
    unfold readJobs at h
    split at h
    · cases h
    next j hj =>
    split at h
    · cases h
    next v hv =>
    obtain ⟨es, rfl, h1⟩ := getItem_ok.mp hj
    obtain ⟨es', rfl, h2⟩ := getItem_ok.mp hv
    cases v <;> cases h
    exact .under h1 (.under h2 (.here _))
  · intro h
    cases h with
    | under h1 h =>
      cases h with
      | under h2 h =>
        cases h
        unfold readJobs
        rw [getItem_ok.mpr ⟨_, rfl, h1⟩]
        simp only [getItem_ok.mpr ⟨_, rfl, h2⟩]
        rfl

theorem readJobs_has {s : Val} {k : String} :
    (∃ p, readJobs k s = .ok p) ↔ HasStr s ["jobs", k] := by
  simp only [readJobs_ok]; rfl

theorem readLogdir_has {s : Val} : (∃ p, readLogdir s = .ok p) ↔ HasStr s ["logdir"] := by
  constructor
  · rintro ⟨p, h⟩
    unfold readLogdir at h
    split at h
    · cases h
    next v hv =>
    obtain ⟨es, rfl, h1⟩ := getItem_ok.mp hv
    cases v <;> cases h
    exact ⟨_, .under h1 (.here _)⟩
  · rintro ⟨p, h⟩
    cases h with
    | under h1 h =>
      cases h
      refine ⟨p, ?_⟩
      unfold readLogdir
      rw [getItem_ok.mpr ⟨_, rfl, h1⟩]
      rfl

theorem readRepos_has {s : Val} : readRepos s = .ok () ↔ HasTable s ["repositories"] := by
  constructor
  · intro h
    unfold readRepos at h
    split at h
    · cases h
    · next es hv =>
      obtain ⟨es', rfl, h1⟩ := getItem_ok.mp hv
      exact ⟨_, .under h1 (.here _)⟩
    · cases h
  · rintro ⟨es, h⟩
    cases h with
    | under h1 h =>
      cases h
      unfold readRepos
      rw [getItem_ok.mpr ⟨_, rfl, h1⟩]

theorem mergeLoop_tables {df : DeviceFile} {es : List (Key × Val)}
    (h : ∀ e ∈ es, ∃ t, e.2 = .map t) : mergeLoop df es = .ok () := by
  induction es with
  | nil => rfl
  | cons e es ih =>
    obtain ⟨k, v⟩ := e
    obtain ⟨t, rfl⟩ := h (k, v) (by simp)
    have := ih (fun e he => h e (List.mem_cons_of_mem _ he))
    cases k <;> simp [mergeLoop, updateOk, this]

theorem iter_ok {v : Val} {xs : List Val} : iter v = .ok xs ↔ Elems v xs := by
  constructor
  · intro h
    cases v <;> simp only [iter] at h <;> cases h
    · exact .str _
    · exact .list _
    · exact .map _
  · intro h
    cases h <;> rfl

theorem hashable_iff {v : Val} : hashable v = true ↔ (∀ l, v ≠ .list l) ∧ ∀ es, v ≠ .map es := by
  cases v <;> simp [hashable]

theorem pairsOk_iff {xs : List Val} : pairsOk xs = .ok () ↔
    ∀ x ∈ xs, ∃ k w, Elems x [k, w] ∧ (∀ l, k ≠ .list l) ∧ (∀ es, k ≠ .map es) := by
  induction xs with
  | nil => simp [pairsOk]
  | cons x xs ih =>
    simp only [pairsOk, List.forall_mem_cons]
    constructor
    · intro h
      split at h
      · cases h
      · next k w hi =>
        split at h
        · next hh => exact ⟨⟨k, w, iter_ok.mp hi, hashable_iff.mp hh⟩, ih.mp h⟩
        · cases h
      · cases h
    · rintro ⟨⟨k, w, h1, h2⟩, h3⟩
      rw [iter_ok.mpr h1]
      simp only [hashable_iff.mpr h2, if_true]
      exact ih.mpr h3

theorem updateOk_iff {v : Val} : updateOk v = .ok () ↔ Updates v := by
  constructor
  · intro h
    unfold updateOk at h
    split at h
    · exact .table _
    · split at h
      · cases h
      · next hi => exact .pairs (iter_ok.mp hi) (pairsOk_iff.mp h)
  · intro h
    cases h with
    | table es => rfl
    | pairs h1 h2 =>
      unfold updateOk
      split
      · rfl
      · rw [iter_ok.mpr h1]
        exact pairsOk_iff.mpr h2

theorem mergeLoop_iff {df : DeviceFile} {es : List (Key × Val)} : mergeLoop df es = .ok () ↔
    ∀ drv v, (Key.str drv, v) ∈ es → (∃ d, Dict.get? df.drivers drv = some d) → Updates v := by
  induction es with
  | nil => simp [mergeLoop]
  | cons e es ih =>
    obtain ⟨k, v⟩ := e
    cases k with
    | other =>
      simp only [mergeLoop, ih, List.mem_cons, Prod.mk.injEq, reduceCtorEq, false_and, false_or]
    | str drv =>
      simp only [mergeLoop]
      by_cases hd : (Dict.get? df.drivers drv).isSome = true
      · rw [if_pos hd]
        constructor
        · intro h drv' v' hm hs
          split at h
          · cases h
          · next hu =>
            rcases List.mem_cons.mp hm with e | hm
            · cases e; exact updateOk_iff.mp hu
            · exact ih.mp h drv' v' hm hs
        · intro h
          rw [updateOk_iff.mpr (h drv v (by simp) (Option.isSome_iff_exists.mp hd))]
          exact ih.mpr (fun drv' v' hm => h drv' v' (List.mem_cons_of_mem _ hm))
      · rw [if_neg hd, ih]
        constructor
        · intro h drv' v' hm hs
          rcases List.mem_cons.mp hm with e | hm
          · cases e; exact absurd (Option.isSome_iff_exists.mpr hs) hd
          · exact h drv' v' hm hs
        · intro h drv' v' hm
          exact h drv' v' (List.mem_cons_of_mem _ hm)

theorem merge_iff {s : Val} {df : DeviceFile} : merge s df = .ok () ↔ DriversFit s df := by
  constructor
  · intro h
    unfold merge at h
    split at h
    · cases h
    · next es hv =>
      obtain ⟨es', rfl, h2⟩ := getItem_ok.mp hv
      exact ⟨es, .under h2 (.here _), mergeLoop_iff.mp h⟩
    · cases h
  · rintro ⟨es, h1, h2⟩
    cases h1 with
    | under e1 e2 =>
      cases e2
      unfold merge
      rw [getItem_ok.mpr ⟨_, rfl, e1⟩]
      exact mergeLoop_iff.mpr h2

/-- Settings with tables for the drivers which have been merged once can be merged with any device
file. -/
theorem merge_any {s : Val} {df df' : DeviceFile}
    (h : ∀ es, At s ["drivers"] (.map es) → ∀ e ∈ es, ∃ t, e.2 = .map t)
    (h1 : merge s df = .ok ()) : merge s df' = .ok () := by
  unfold merge at h1 ⊢
  split at h1
  · cases h1
  · next es hv =>
    obtain ⟨es', rfl, h2⟩ := getItem_ok.mp hv
    exact mergeLoop_tables (h es (.under h2 (.here _)))
  · cases h1

theorem mkDaemon_merge {si : String → Option Int} {f : Files} {s : Val} {df : DeviceFile}
    (h : mkDaemon si f = .ok (s, df)) : merge s df = .ok () := by
  unfold mkDaemon at h
  repeat' split at h
  all_goals cases h
  next h => exact h

theorem jobReads_has {l : Bool} {s : Val} :
    exc (jobReads l s) = none ↔ HasStr s ["jobs", "dbpath"] ∧
      (l = true → HasStr s ["jobs", "storage"] ∧ HasTable s ["repositories"]) := by
  rw [← readJobs_has, ← readJobs_has, ← readRepos_has]
  unfold jobReads
  cases readJobs "dbpath" s with
  | error e => simp [exc]
  | ok p =>
    cases l with
    | false => simp [exc]
    | true =>
      cases readJobs "storage" s with
      | error e => simp [exc]
      | ok p => cases readRepos s <;> simp [exc]

theorem drvReads_has {l : Bool} {s : Val} :
    exc (drvReads l s) = none ↔ HasStr s ["jobs", "dbpath"] ∧
      (l = true → HasStr s ["logdir"]) := by
  rw [← readJobs_has, ← readLogdir_has]
  unfold drvReads
  cases readJobs "dbpath" s with
  | error e => simp [exc]
  | ok p =>
    cases l with
    | false => simp [exc]
    | true => cases readLogdir s <;> simp [exc]

theorem pipReads_has {s : Val} :
    exc (readJobs "dbpath" s) = none ↔ HasStr s ["jobs", "dbpath"] := by
  rw [← readJobs_has]
  cases readJobs "dbpath" s <;> simp [exc]

/-! ## C116 -/

/-- A daemon that has started has found its folder for logs and its database. -/
theorem C116_started {si : String → Option Int} {f : Files} {s : Srv} (h : start si f = .ok s) :
    HasStr s.settings ["logdir"] ∧ HasStr s.settings ["jobs", "dbpath"] ∧ Sound s := by
  unfold start at h
  split at h
  · cases h
  next ns df _ =>
  split at h
  · cases h
  next p h1 =>
  split at h
  · cases h
  next q h2 =>
  cases h
  exact ⟨readLogdir_has.mp ⟨_, h1⟩, readJobs_has.mp ⟨_, h2⟩, by simp [Sound]⟩

/-- Exactly which files are accepted: a device file with a consistent description (C115) is named, and
there is a section for drivers, from which the settings of the drivers that occur can be updated.
Nothing else is checked. -/
theorem C116_accepted {si : String → Option Int} {f : Files} {s : Val} {df : DeviceFile} :
    mkDaemon si f = .ok (s, df) ↔
      f.settings = some s ∧ DriversFit s df ∧ ∃ path doc raw,
        At s ["devices", "config"] (.str path) ∧ f.devices path = some (some doc) ∧
        ReadsFile si doc raw ∧ populateAttrs raw = .ok df := by
  constructor
  · intro h
    have hmerge := mkDaemon_merge h
    unfold mkDaemon at h
    split at h
    · cases h
    next s' hs =>
    split at h
    · cases h
    next d hd =>
    split at h
    · cases h
    · next path hp =>
      split at h
      · cases h
      · cases h
      next doc hdoc =>
      split at h
      · cases h
      next df' hdf =>
      split at h
      · cases h
      cases h
      obtain ⟨raw, h1, h2⟩ := C115_exact.mp hdf
      obtain ⟨es, rfl, e1⟩ := getItem_ok.mp hd
      obtain ⟨es', rfl, e2⟩ := getItem_ok.mp hp
      exact ⟨hs, merge_iff.mp hmerge, path, doc, raw, .under e1 (.under e2 (.here _)), hdoc, h1, h2⟩
    · cases h
  · rintro ⟨hs, hd, path, doc, raw, hp, hdoc, h1, h2⟩
    have hmerge : merge s df = .ok () := merge_iff.mpr hd
    cases hp with
    | under e1 hp =>
      cases hp with
      | under e2 hp =>
        cases hp
        unfold mkDaemon
        rw [hs]
        simp only
        rw [getItem_ok.mpr ⟨_, rfl, e1⟩]
        simp only
        rw [getItem_ok.mpr ⟨_, rfl, e2⟩]
        simp only [hdoc, C115_exact.mpr ⟨raw, h1, h2⟩, hmerge]

/-- Exactly when `reload` succeeds, and exactly when it ends the daemon: the present settings have to
name the database, and the new section for drivers has to fit the drivers of the present device file,
too. -/
theorem C116_reload_exact {si : String → Option Int} {f : Files} {refuse : Bool} {s : Srv} :
    (∀ s', reload si f refuse s = (s', some true) ↔ ∃ ns ndf, mkDaemon si f = .ok (ns, ndf) ∧
      HasStr s.settings ["jobs", "dbpath"] ∧ refuse = false ∧ DriversFit ns s.df ∧
      s' = { s with settings := ns, df := ndf }) ∧
    ((reload si f refuse s).2 = none ↔ ∃ ns ndf, mkDaemon si f = .ok (ns, ndf) ∧
      (HasStr s.settings ["jobs", "dbpath"] → refuse = false ∧ ¬ DriversFit ns s.df)) ∧
    ((reload si f refuse s).2 = none → ∃ e, (reload si f refuse s).1 = { s with main := .died e }) ∧
    ((reload si f refuse s).2 = some false → (reload si f refuse s).1 = s) := by
  unfold reload
  cases hm : mkDaemon si f with
  | error e => exact ⟨by simp, by simp, by simp, by simp⟩
  | ok x =>
    obtain ⟨ns, ndf⟩ := x
    simp only
    cases hj : readJobs "dbpath" s.settings with
    | error e =>
      have hn : ¬ HasStr s.settings ["jobs", "dbpath"] := by
        rw [← readJobs_has, hj]; simp
      exact ⟨by simp [hn], by simp [hn], by simp, by simp⟩
    | ok p =>
      have hs : HasStr s.settings ["jobs", "dbpath"] := readJobs_has.mp ⟨p, hj⟩
      cases refuse with
      | true => exact ⟨by simp, by simp [hs], by simp, by simp⟩
      | false =>
        simp only [Bool.false_eq_true, if_false]
        cases hmg : merge ns s.df with
        | error e =>
          have hn : ¬ DriversFit ns s.df := by rw [← merge_iff, hmg]; simp
          exact ⟨by simp [hn], by simp [hn], by simp, by simp⟩
        | ok u =>
          have hf : DriversFit ns s.df := merge_iff.mp hmg
          exact ⟨by simp [hs, hf, eq_comm], by simp [hs, hf], by simp, by simp⟩

/-! A list of pairs is as good as a table, and so is a list of words of two letters; a number is not. -/
example : Updates (.list [.list [.str "a", .int 1], .str "xy"]) :=
  .pairs (.list _) (by
    intro x hx
    simp only [List.mem_cons, List.not_mem_nil, or_false] at hx
    rcases hx with rfl | rfl
    · exact ⟨_, _, .list _, by simp, by simp⟩
    · exact ⟨_, _, .str _, by simp, by simp⟩)
example : ¬ Updates (.int 3) := by
  rw [← updateOk_iff]; decide
example : ¬ Updates (.list [.list [.list [], .int 1]]) := by
  rw [← updateOk_iff]; decide
example : ¬ Updates (.list [.str "abc"]) := by
  rw [← updateOk_iff]; decide

/-- **C116**, partial: as long as all settings that the daemon accepts are complete, no thread of it
ends because of an entry of the settings, and all messages are answered. -/
theorem C116_partial {si : String → Option Int} {f : Files} {s0 s : Srv}
    (h0 : start si f = .ok s0) (hf : FullSettings s0.settings)
    (h : StepsDoc si FullSettings s0 s) :
    Sound s ∧ FullSettings s.settings ∧
      ∀ ev s' a, step si ev s = some (s', a) →
        (∀ f r ns df, ev = .reload f r → mkDaemon si f = .ok (ns, df) → FullSettings ns) →
        Sound s' ∧ ((∃ f r, ev = .reload f r) ∨ (∃ b, ev = .stop b) ∨ ev = .status → a.isSome) := by
  have key : ∀ {s s' : Srv} {ev : Ev} {a : Answer}, Sound s → FullSettings s.settings →
      step si ev s = some (s', a) →
      (∀ f r ns df, ev = .reload f r → mkDaemon si f = .ok (ns, df) → FullSettings ns) →
      Sound s' ∧ FullSettings s'.settings ∧
        ((∃ f r, ev = .reload f r) ∨ (∃ b, ev = .stop b) ∨ ev = .status → a.isSome) := by
    intro s s' ev a ⟨hm, hj, hp, hd⟩ hf h hK
    unfold step at h
    split at h
    · cases h
    obtain ⟨p, hdb⟩ := readJobs_has.mpr hf.dbpath
    cases ev with
    | reload fl r =>
      simp only [Option.some.injEq] at h
      unfold reload at h
      split at h
      · cases h; exact ⟨⟨hm, hj, hp, hd⟩, hf, by simp⟩
      next ns ndf hmk =>
      rw [hdb] at h
      simp only at h
      split at h
      · cases h; exact ⟨⟨hm, hj, hp, hd⟩, hf, by simp⟩
      · have hn := hK fl r ns ndf rfl hmk
        rw [merge_any hn.drivers (mkDaemon_merge hmk)] at h
        cases h
        exact ⟨⟨hm, hj, hp, hd⟩, hn, by simp⟩
    | stop b =>
      simp only [stop, hdb, Option.some.injEq] at h
      split at h
      · cases h; exact ⟨⟨hm, hj, hp, hd⟩, hf, by simp⟩
      · cases h; exact ⟨⟨by simp, hj, hp, hd⟩, hf, by simp⟩
    | status =>
      simp only [Option.some.injEq] at h
      cases h; exact ⟨⟨hm, hj, hp, hd⟩, hf, by simp⟩
    | jobPass l =>
      simp only [hj] at h
      cases h
      exact ⟨⟨hm, jobReads_has.mpr ⟨hf.dbpath, fun _ => ⟨hf.storage, hf.repositories⟩⟩, hp, hd⟩, hf,
        by simp⟩
    | pipPass =>
      simp only [hp] at h
      cases h
      exact ⟨⟨hm, hj, pipReads_has.mpr hf.dbpath, hd⟩, hf, by simp⟩
    | drvPass l =>
      simp only [hd] at h
      cases h
      exact ⟨⟨hm, hj, hp, drvReads_has.mpr ⟨hf.dbpath, fun _ => hf.logdir⟩⟩, hf, by simp⟩
  have inv : Sound s ∧ FullSettings s.settings := by
    induction h with
    | refl => exact ⟨(C116_started h0).2.2, hf⟩
    | tail _ h1 h2 ih => exact ⟨(key ih.1 ih.2 h1 h2).1, (key ih.1 ih.2 h1 h2).2.1⟩
  exact ⟨inv.1, inv.2, fun ev s' a h1 h2 => ⟨(key inv.1 inv.2 h1 h2).1, (key inv.1 inv.2 h1 h2).2.2⟩⟩

/-- Exactly which entries a pass of a manager needs. -/
theorem C116_passes {si : String → Option Int} {s s' : Srv} {a : Answer} :
    (∀ l, step si (.jobPass l) s = some (s', a) →
      (s'.jm = none ↔ HasStr s.settings ["jobs", "dbpath"] ∧
        (l = true → HasStr s.settings ["jobs", "storage"] ∧
          HasTable s.settings ["repositories"]))) ∧
    (step si .pipPass s = some (s', a) →
      (s'.pm = none ↔ HasStr s.settings ["jobs", "dbpath"])) ∧
    (∀ l, step si (.drvPass l) s = some (s', a) →
      (s'.dm = none ↔ HasStr s.settings ["jobs", "dbpath"] ∧
        (l = true → HasStr s.settings ["logdir"]))) := by
  refine ⟨fun l h => ?_, fun h => ?_, fun l h => ?_⟩
  all_goals
    unfold step at h
    split at h
    · cases h
    simp only at h
    split at h
    · cases h
    cases h
  · exact jobReads_has
  · exact pipReads_has
  · exact drvReads_has

/-- **C116 fails for ever**: once the daemon has settings without the path of the database, they stay,
whatever is done; `stop` ends the daemon with an exception, and so does every `reload` of files that
can be processed; and no pass of a manager survives. -/
theorem C116_stuck {si : String → Option Int} {s s' : Srv}
    (hs : ¬ HasStr s.settings ["jobs", "dbpath"]) (h : StepsDoc si (fun _ => True) s s') :
    s'.settings = s.settings ∧ s'.df = s.df ∧
    (∀ ev s'' a, step si ev s' = some (s'', a) →
      ((∃ b, ev = .stop b) → ∃ e, s''.main = .died e ∧ a = none) ∧
      (∀ f r, ev = .reload f r → a ≠ some true ∧
        (∀ x, mkDaemon si f = .ok x → ∃ e, s''.main = .died e ∧ a = none)) ∧
      ((∃ l, ev = .jobPass l) → s''.jm.isSome) ∧ (ev = .pipPass → s''.pm.isSome) ∧
      ((∃ l, ev = .drvPass l) → s''.dm.isSome)) := by
  have key : ∀ {s s' : Srv} {ev : Ev} {a : Answer}, ¬ HasStr s.settings ["jobs", "dbpath"] →
      step si ev s = some (s', a) → (s'.settings = s.settings ∧ s'.df = s.df) ∧
      ((∃ b, ev = .stop b) → ∃ e, s'.main = .died e ∧ a = none) ∧
      (∀ f r, ev = .reload f r → a ≠ some true ∧
        (∀ x, mkDaemon si f = .ok x → ∃ e, s'.main = .died e ∧ a = none)) ∧
      ((∃ l, ev = .jobPass l) → s'.jm.isSome) ∧ (ev = .pipPass → s'.pm.isSome) ∧
      ((∃ l, ev = .drvPass l) → s'.dm.isSome) := by
    intro s s' ev a hs h
    have hdb : ∃ e, readJobs "dbpath" s.settings = .error e := by
      cases h1 : readJobs "dbpath" s.settings with
      | error e => exact ⟨e, rfl⟩
      | ok p => exact absurd (readJobs_has.mp ⟨p, h1⟩) hs
    obtain ⟨e, hdb⟩ := hdb
    unfold step at h
    split at h
    · cases h
    cases ev with
    | reload fl r =>
      simp only [Option.some.injEq, reload] at h
      split at h
      · next hmk =>
        cases h
        refine ⟨⟨rfl, rfl⟩, by simp, ?_, by simp, by simp, by simp⟩
        intro f' r' he
        cases he
        refine ⟨by simp, fun x hx => ?_⟩
        rw [hmk] at hx; cases hx
      · rw [hdb] at h
        cases h
        exact ⟨⟨rfl, rfl⟩, by simp, fun _ _ _ => ⟨by simp, fun _ _ => ⟨e, rfl, rfl⟩⟩,
          by simp, by simp, by simp⟩
    | stop b =>
      simp only [stop, hdb, Option.some.injEq] at h
      cases h
      exact ⟨⟨rfl, rfl⟩, fun _ => ⟨e, rfl, rfl⟩, by simp, by simp, by simp, by simp⟩
    | status =>
      simp only [Option.some.injEq] at h
      cases h; exact ⟨⟨rfl, rfl⟩, by simp, by simp, by simp, by simp, by simp⟩
    | jobPass l =>
      simp only at h
      split at h
      · cases h
      · cases h
        refine ⟨⟨rfl, rfl⟩, by simp, by simp, fun _ => ?_, by simp, by simp⟩
        simp [jobReads, hdb, exc]
    | pipPass =>
      simp only at h
      split at h
      · cases h
      · cases h
        refine ⟨⟨rfl, rfl⟩, by simp, by simp, by simp, fun _ => ?_, by simp⟩
        simp [hdb, exc]
    | drvPass l =>
      simp only at h
      split at h
      · cases h
      · cases h
        refine ⟨⟨rfl, rfl⟩, by simp, by simp, by simp, by simp, fun _ => ?_⟩
        simp [drvReads, hdb, exc]
  have inv : s'.settings = s.settings ∧ s'.df = s.df := by
    induction h with
    | refl => exact ⟨rfl, rfl⟩
    | tail _ h1 _ ih =>
      have := (key (by rw [ih.1]; exact hs) h1).1
      exact ⟨this.1.trans ih.1, this.2.trans ih.2⟩
  exact ⟨inv.1, inv.2, fun ev s'' a h1 => (key (by rw [inv.1]; exact hs) h1).2⟩

/-- The files of the examples: `jobs` is the section `[jobs]`, `drv` what is said about the driver,
`doc` the device file. -/
def exFiles (jobs : Option Val) (drv doc : Val) : Files where
  settings := some (.map ((jobs.toList.map (fun j => (Key.str "jobs", j))) ++
    [(.str "logdir", .str "/log"), (.str "devices", .map [(.str "config", .str "/devices.yml")]),
     (.str "repositories", .map []), (.str "drivers", .map [(.str "example_counter", drv)])]))
  devices := fun p => if p = "/devices.yml" then some (some doc) else none

/-- The section `[jobs]` written by `tomato init`. -/
def exJobs : Val :=
  .map [(.str "storage", .str "/Jobs"), (.str "dbpath", .str "/Jobs/dbpath.sqlite")]

/-- The device file written by `tomato init`. -/
def exDoc : Val := initDevs [.str "1"] (.int 1) (.str "counter")

/-- The files written by `tomato init`. -/
def goodFiles : Files := exFiles (some exJobs) (.map []) exDoc

/-- A few events in a row, and the last answer. -/
def runDoc (si : String → Option Int) : List Ev → Srv → Option (Srv × Answer)
  | [], s => some (s, none)
  | [ev], s => step si ev s
  | ev :: rest, s => match step si ev s with
    | some (s', _) => runDoc si rest s'
    | none => none

theorem fullSettings_good : FullSettings (goodFiles.settings.getD .null) := by
  refine ⟨readJobs_has.mp ⟨_, rfl⟩, readJobs_has.mp ⟨_, rfl⟩, readLogdir_has.mp ⟨_, rfl⟩,
    readRepos_has.mp rfl, ?_⟩
  intro es h
  cases h with
  | under h1 h2 =>
    cases h2
    rw [← lookup_some] at h1
    cases h1
    intro e he
    rw [List.mem_singleton] at he
    subst he
    exact ⟨_, rfl⟩

/-- The hypotheses of `C116_partial` can be met: files as written by `tomato init`, reloaded. -/
example : ∃ s0 s, start noInt goodFiles = .ok s0 ∧ FullSettings s0.settings ∧
    StepsDoc noInt FullSettings s0 s ∧ s.jm = none ∧
    (∃ s1, step noInt (.reload goodFiles false) s0 = some (s1, some true)) := by
  refine ⟨_, _, rfl, fullSettings_good, .tail (.tail (.refl _) (ev := .reload goodFiles false) rfl ?_)
    (ev := .jobPass true) rfl (by simp), rfl, ⟨_, rfl⟩⟩
  intro f r ns df he hm
  cases he
  cases hm
  exact fullSettings_good

/-- **C116 is false of the code**: settings without the section `[jobs]` are accepted by `reload`.
The three managers then end with `KeyError`; and when the settings have been corrected, `reload`
ends the daemon itself. -/
theorem C116_refuted : ∃ s0 s1 s2 s3,
    start noInt goodFiles = .ok s0 ∧
    step noInt (.reload (exFiles none (.map []) exDoc) false) s0 = some (s1, some true) ∧
    ¬ HasStr s1.settings ["jobs", "dbpath"] ∧
    runDoc noInt [.jobPass false, .pipPass, .drvPass false] s1 = some (s2, none) ∧
    s2.jm = some .keyError ∧ s2.pm = some .keyError ∧ s2.dm = some .keyError ∧
    s2.main = .serving ∧
    step noInt (.reload goodFiles false) s2 = some (s3, none) ∧ s3.main = .died .keyError := by
  refine ⟨_, _, _, _, rfl, rfl, ?_, rfl, rfl, rfl, rfl, rfl, rfl, rfl⟩
  rw [← readJobs_has]
  rintro ⟨p, hp⟩
  cases hp

/-- Settings without `storage` are accepted: the manager of jobs ends at the first launch.  Settings
without `logdir`: the manager of drivers ends at the first start of a driver. -/
theorem C116_refuted_late : ∃ s0 s1 s2 s3 s4,
    start noInt goodFiles = .ok s0 ∧
    step noInt (.reload (exFiles (some (.map [(.str "dbpath", .str "/Jobs/dbpath.sqlite")]))
      (.map []) exDoc) false) s0 = some (s1, some true) ∧
    step noInt (.jobPass false) s1 = some (s2, none) ∧ s2.jm = none ∧
    step noInt (.jobPass true) s2 = some (s3, none) ∧ s3.jm = some .keyError ∧
    runDoc noInt [.reload { goodFiles with settings := some (.map [(.str "jobs", exJobs),
      (.str "devices", .map [(.str "config", .str "/devices.yml")]),
      (.str "drivers", .map [])]) } false, .drvPass true] s0 = some (s4, none) ∧
    s4.dm = some .keyError :=
  ⟨_, _, _, _, _, rfl, rfl, rfl, rfl, rfl, rfl, rfl, rfl⟩

/-- The settings of a driver which has been removed from the device file are not looked at when the
files are read, but when they are put in the place of the old ones: a value in the place of a table
ends the daemon. -/
theorem C116_refuted_driver : ∃ s0 s1,
    start noInt goodFiles = .ok s0 ∧
    mkDaemon noInt (exFiles (some exJobs) (.int 3) (.map [])) =
      .ok ((exFiles (some exJobs) (.int 3) (.map [])).settings.getD .null, {}) ∧
    step noInt (.reload (exFiles (some exJobs) (.int 3) (.map [])) false) s0 = some (s1, none) ∧
    s1.main = .died .typeError :=
  ⟨_, _, rfl, rfl, rfl, rfl⟩

/-- **C116**, exactly what `stop` does: it is answered with success if and only if no job is running, and then the daemon
is stopping; it is refused, and nothing changes, if one is; without the entry for the database the daemon ends with an
exception.  `status` is always answered, and changes nothing. -/
theorem C116_stop_exact {si : String → Option Int} {s s' : Srv} {a : Answer} :
    (∀ busy, step si (.stop busy) s = some (s', a) →
      (a = some true ↔ HasStr s.settings ["jobs", "dbpath"] ∧ busy = false) ∧
      (a = none ↔ ¬ HasStr s.settings ["jobs", "dbpath"]) ∧
      (a = some true → s' = { s with main := .stopping }) ∧ (a = some false → s' = s) ∧
      (a = none → ∃ e, s' = { s with main := .died e })) ∧
    (step si .status s = some (s', a) → a = some true ∧ s' = s) := by
  constructor
  · intro busy h
    unfold step at h
    split at h
    · cases h
    simp only [Option.some.injEq] at h
    unfold stop at h
    cases hj : readJobs "dbpath" s.settings with
    | error e =>
      have hn : ¬ HasStr s.settings ["jobs", "dbpath"] := by
        rw [← readJobs_has, hj]; simp
      rw [hj] at h
      cases h
      exact ⟨by simp [hn], by simp [hn], by simp, by simp, fun _ => ⟨e, rfl⟩⟩
    | ok p =>
      have hs : HasStr s.settings ["jobs", "dbpath"] := readJobs_has.mp ⟨p, hj⟩
      rw [hj] at h
      cases busy <;> cases h
      · exact ⟨by simp [hs], by simp [hs], by simp, by simp, by simp⟩
      · exact ⟨by simp, by simp [hs], by simp, by simp, by simp⟩
  · intro h
    unfold step at h
    split at h
    · cases h
    cases h
    exact ⟨rfl, rfl⟩

example : ∃ s0 s1, start noInt goodFiles = .ok s0 ∧ step noInt (.stop true) s0 = some (s0, some false) ∧
    step noInt (.stop false) s0 = some (s1, some true) ∧ s1.main = .stopping :=
  ⟨_, _, rfl, rfl, rfl, rfl⟩

/-- Against the same value for a driver in use the daemon is protected. -/
example : ∃ s0 s1, start noInt goodFiles = .ok s0 ∧
    step noInt (.reload (exFiles (some exJobs) (.int 3) exDoc) false) s0 = some (s1, some false) ∧
    s1.settings = s0.settings ∧ s1.main = .serving :=
  ⟨_, _, rfl, rfl, rfl, rfl⟩

end Props

end Tomato
