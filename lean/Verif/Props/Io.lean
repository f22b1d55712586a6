import Verif.Io
import Verif.Props.JobConditions

/-!
# Merged results: C68
-/

namespace Tomato.Props

open Tomato.Io

/-! ## The specification -/

/-- Every file that looks like data has the data of one role, and its name (or `None`). -/
def Tidy (f : Folder) : Prop :=
  ∀ n c, (n, c) ∈ f → isPkl n = true →
    c = .obj none ∨ ∃ r d, n = pklName r ∧ c = .obj (some d) ∧ d.role = some r

/-- The groups are exactly the data in the files. -/
def Exactly (f : Folder) (g : Dict String (List Nat)) : Prop :=
  (Dict.keys g).Nodup ∧
  ∀ r pts, g.get? r = some pts ↔ ∃ d, (pklName r, .obj (some d)) ∈ f ∧ d.pts = pts

/-! ## Names -/

theorem isPkl_pklName (r : String) : isPkl (pklName r) = true := by
  unfold isPkl pklName
  rw [List.isSuffixOf_iff_suffix, String.toList_append]
  exact List.suffix_append _ _

theorem pklName_inj {r r' : String} (h : pklName r = pklName r') : r = r' := by
  have := congrArg String.toList h
  simp only [pklName, String.toList_append] at this
  exact String.toList_inj.mp (List.append_cancel_right this)

/-! ## Merging -/

theorem loadAll_tidy {f : Folder} (h : Tidy f) :
    ∃ ds, loadAll f = .ok ds ∧
      ∀ d, d ∈ ds ↔ ∃ r, (pklName r, .obj (some d)) ∈ f ∧ d.role = some r := by
  induction f with
  | nil => exact ⟨[], rfl, by simp⟩
  | cons x f ih =>
    obtain ⟨n, c⟩ := x
    obtain ⟨ds, h1, h2⟩ := ih (fun n c hm => h n c (List.mem_cons_of_mem _ hm))
    simp only [loadAll]
    by_cases hp : isPkl n = true
    · rw [if_pos hp]
      rcases h n c (by simp) hp with rfl | ⟨r, d, rfl, rfl, hr⟩
      · refine ⟨ds, h1, fun d => ?_⟩
        rw [h2]
        constructor
        · rintro ⟨r, hm, hr⟩; exact ⟨r, by simp [hm], hr⟩
        · rintro ⟨r, hm, hr⟩
          rcases List.mem_cons.mp hm with hm | hm
          · cases hm
          · exact ⟨r, hm, hr⟩
      · rw [h1]
        refine ⟨d :: ds, rfl, fun d' => ?_⟩
        rw [List.mem_cons, h2]
        constructor
        · rintro (rfl | ⟨r', hm, hr'⟩)
          · exact ⟨r, by simp, hr⟩
          · exact ⟨r', by simp [hm], hr'⟩
        · rintro ⟨r', hm, hr'⟩
          rcases List.mem_cons.mp hm with hm | hm
          · have := (Prod.mk.injEq _ _ _ _ ▸ hm).2
            simp only [Content.obj.injEq, Option.some.injEq] at this
            exact .inl this
          · exact .inr ⟨r', hm, hr'⟩
    · rw [if_neg hp]
      refine ⟨ds, h1, fun d => ?_⟩
      rw [h2]
      constructor
      · rintro ⟨r, hm, hr⟩; exact ⟨r, by simp [hm], hr⟩
      · rintro ⟨r, hm, hr⟩
        rcases List.mem_cons.mp hm with hm | hm
        · cases hm; exact absurd (isPkl_pklName r) hp
        · exact ⟨r, hm, hr⟩

theorem groups_ok (ds : List Ds) (g : Dict String (List Nat)) (hg : (Dict.keys g).Nodup)
    (h : ∀ d ∈ ds, d.role.isSome = true) (hf : ∀ d ∈ ds, ∀ d' ∈ ds, d.role = d'.role → d = d') :
    ∃ g', groups ds g = .ok g' ∧ (Dict.keys g').Nodup ∧
      ∀ r pts, g'.get? r = some pts ↔ (∃ d ∈ ds, d.role = some r ∧ d.pts = pts) ∨
        ((∀ d ∈ ds, d.role ≠ some r) ∧ g.get? r = some pts) := by
  induction ds generalizing g with
  | nil => exact ⟨g, rfl, hg, by simp⟩
  | cons d ds ih =>
    obtain ⟨r0, hr0⟩ := Option.isSome_iff_exists.mp (h d (by simp))
    obtain ⟨g', h1, h2, h3⟩ := ih (g.set r0 d.pts) (Dict.nodup_keys_set hg _ _)
      (fun d hd => h d (by simp [hd])) (fun d hd d' hd' => hf d (by simp [hd]) d' (by simp [hd']))
    refine ⟨g', by simp only [groups, hr0]; exact h1, h2, fun r pts => ?_⟩
    rw [h3, Dict.get?_set]
    by_cases hr : r = r0
    · subst hr
      rw [if_pos rfl]
      constructor
      · rintro (⟨d', hd', h4, h5⟩ | ⟨h4, h5⟩)
        · exact .inl ⟨d', by simp [hd'], h4, h5⟩
        · exact .inl ⟨d, by simp, hr0, Option.some.inj h5⟩
      · rintro (⟨d', hd', h4, h5⟩ | ⟨h4, h5⟩)
        · have := hf d (by simp) d' hd' (hr0.trans h4.symm)
          subst this
          by_cases hex : ∃ x ∈ ds, x.role = some r
          · obtain ⟨x, hx, hxr⟩ := hex
            have := hf d (by simp) x (by simp [hx]) (hr0.trans hxr.symm)
            subst this
            exact .inl ⟨d, hx, hxr, h5⟩
          · exact .inr ⟨fun x hx hxr => hex ⟨x, hx, hxr⟩, by rw [h5]⟩
        · exact absurd hr0 (h4 d (by simp))
    · rw [if_neg (fun e => hr e.symm)]
      constructor
      · rintro (⟨d', hd', h4, h5⟩ | ⟨h4, h5⟩)
        · exact .inl ⟨d', by simp [hd'], h4, h5⟩
        · refine .inr ⟨?_, h5⟩
          intro x hx hxr
          rcases List.mem_cons.mp hx with rfl | hx
          · rw [hr0] at hxr; exact hr (Option.some.inj hxr).symm
          · exact h4 x hx hxr
      · rintro (⟨d', hd', h4, h5⟩ | ⟨h4, h5⟩)
        · rcases List.mem_cons.mp hd' with rfl | hd'
          · rw [hr0] at h4; exact absurd (Option.some.inj h4).symm hr
          · exact .inl ⟨d', hd', h4, h5⟩
        · exact .inr ⟨fun x hx => h4 x (by simp [hx]), h5⟩

/-- **C68** (any folder): merging a folder whose data files are complete and carry the role after
which they are named gives exactly one group per file with data, with exactly the data of the
file, and nothing else. -/
theorem C68_groups {f : Folder} (hn : (Dict.keys f).Nodup) (ht : Tidy f) (o : String) :
    ∃ g, mergeNetcdfs (some f) (some o) = .ok (o, g) ∧ Exactly f g := by
  obtain ⟨ds, h1, h2⟩ := loadAll_tidy ht
  have hrole : ∀ d r, (pklName r, .obj (some d)) ∈ f → d.role = some r := by
    intro d r hm
    rcases ht _ _ hm (isPkl_pklName r) with h | ⟨r', d', h, h', h''⟩
    · cases h
    · cases h'; rw [pklName_inj h]; exact h''
  obtain ⟨g, h3, h4, h5⟩ := groups_ok ds [] (by simp [Dict.keys])
    (fun d hd => by obtain ⟨r, _, hr⟩ := (h2 d).mp hd; rw [hr]; rfl)
    (fun d hd d' hd' hr => by
      obtain ⟨r, hm, hr1⟩ := (h2 d).mp hd
      obtain ⟨r', hm', hr1'⟩ := (h2 d').mp hd'
      rw [hr1, hr1'] at hr
      cases hr
      have e1 := Dict.get?_of_mem_nodup hn hm
      have e2 := Dict.get?_of_mem_nodup hn hm'
      rw [e1] at e2
      cases e2; rfl)
  refine ⟨g, by simp only [mergeNetcdfs, h1, h3], h4, fun r pts => ?_⟩
  rw [h5]
  constructor
  · rintro (⟨d, hd, hr, hp⟩ | ⟨-, h⟩)
    · obtain ⟨r', hm, hr'⟩ := (h2 d).mp hd
      rw [hr] at hr'; cases hr'
      exact ⟨d, hm, hp⟩
    · cases h
  · rintro ⟨d, hm, hp⟩
    exact .inl ⟨d, (h2 d).mpr ⟨r, hm, hrole d r hm⟩, hrole d r hm, hp⟩

/-! ## Storing, then merging -/

/-- Store a list of datasets, one after the other. -/
def storeAll : List (String × Ds) → Folder → Except PyErr Unit × Folder
  | [], f => (.ok (), f)
  | (r, d) :: rest, f =>
    match dataToPickle d r f with
    | (.ok _, f) => storeAll rest f
    | (.error e, f) => (.error e, f)

/-- The data stored for a role, in order. -/
def storedFor (r : String) (l : List (String × Ds)) : List Nat :=
  (l.filter (fun x => x.1 == r)).flatMap (fun x => x.2.pts)

/-- The folder after storing: other files are as before, every role has its data. -/
structure After (f0 : Folder) (l : List (String × Ds)) (f : Folder) : Prop where
  nodup : (Dict.keys f).Nodup
  tidy : Tidy f
  data : ∀ r, f.get? (pklName r) =
    if r ∈ l.map (·.1) then some (.obj (some ⟨some r, storedFor r l⟩)) else none

theorem mem_set_dict {f : Folder} (hn : (Dict.keys f).Nodup) {n m : String} {c c' : Content}
    (h : (m, c') ∈ Dict.set f n c) : (m = n ∧ c' = c) ∨ (m, c') ∈ f := by
  have h1 := Dict.get?_of_mem_nodup (Dict.nodup_keys_set hn n c) h
  rw [Dict.get?_set] at h1
  split at h1
  · next e => exact .inl ⟨e.symm, (Option.some.inj h1).symm⟩
  · exact .inr (Dict.get?_some_mem h1)

theorem after_store {f0 f : Folder} {l : List (String × Ds)} (h : After f0 l f) (r : String) (d : Ds)
    (hr : '/' ∉ r.toList) :
    ∃ f', dataToPickle d r f = (.ok (), f') ∧ After f0 (l ++ [(r, d)]) f' := by
  have hr' : r.toList.contains '/' = false := by simpa using hr
  have key : ∀ pts, pts = storedFor r (l ++ [(r, d)]) →
      After f0 (l ++ [(r, d)]) (Dict.set f (pklName r) (.obj (some ⟨some r, pts⟩))) := by
    rintro pts rfl
    refine ⟨Dict.nodup_keys_set h.nodup _ _, ?_, fun r' => ?_⟩
    · intro n c hm hp
      rcases mem_set_dict h.nodup hm with ⟨rfl, rfl⟩ | hm
      · exact .inr ⟨r, _, rfl, rfl, rfl⟩
      · exact h.tidy n c hm hp
    · rw [Dict.get?_set]
      by_cases e : r' = r
      · subst e; simp
      · rw [if_neg (fun e' => e (pklName_inj e').symm), h.data r']
        have e' : ¬ r = r' := fun x => e x.symm
        have h1 : storedFor r' (l ++ [(r, d)]) = storedFor r' l := by
          simp [storedFor, List.filter_append, e']
        have h2 : r' ∈ (l ++ [(r, d)]).map (·.1) ↔ r' ∈ l.map (·.1) := by
          rw [List.map_append, List.mem_append]; simp [e]
        rw [h1]
        by_cases hm : r' ∈ l.map (·.1)
        · rw [if_pos hm, if_pos (h2.mpr hm)]
        · rw [if_neg hm, if_neg (fun x => hm (h2.mp x))]
  unfold dataToPickle
  simp only [hr', h.data r]
  by_cases hm : r ∈ l.map (·.1)
  · rw [if_pos hm]
    refine ⟨_, rfl, key _ ?_⟩
    simp [storedFor, List.filter_append]
  · rw [if_neg hm]
    refine ⟨_, rfl, key _ ?_⟩
    have : l.filter (fun x => x.1 == r) = [] := by
      rw [List.filter_eq_nil_iff]
      intro x hx he
      exact hm (List.mem_map.mpr ⟨x, hx, by simpa using he⟩)
    simp [storedFor, List.filter_append, this]

theorem after_storeAll {f0 f : Folder} {l l' : List (String × Ds)} (h : After f0 l f)
    (hr : ∀ x ∈ l', '/' ∉ x.1.toList) :
    ∃ f', storeAll l' f = (.ok (), f') ∧ After f0 (l ++ l') f' := by
  induction l' generalizing l f with
  | nil => exact ⟨f, rfl, by simpa using h⟩
  | cons x l' ih =>
    obtain ⟨r, d⟩ := x
    obtain ⟨f1, h1, h2⟩ := after_store h r d (hr (r, d) (by simp))
    obtain ⟨f2, h3, h4⟩ := ih h2 (fun x hx => hr x (by simp [hx]))
    refine ⟨f2, ?_, by simpa using h4⟩
    simp only [storeAll]; rw [h1]; exact h3

/-- **C68** (storing, then merging): in a folder that has no data files at the beginning, store any
datasets for any roles, then merge: there is a group for exactly those roles for which data was
stored, and it has exactly the data stored for that role, in order. -/
theorem C68_stored {f0 : Folder} (hn : (Dict.keys f0).Nodup)
    (h0 : ∀ n c, (n, c) ∈ f0 → isPkl n = false) (l : List (String × Ds))
    (hr : ∀ x ∈ l, '/' ∉ x.1.toList) (o : String) :
    ∃ f g, storeAll l f0 = (.ok (), f) ∧ mergeNetcdfs (some f) (some o) = .ok (o, g) ∧
      (Dict.keys g).Nodup ∧
      ∀ r, g.get? r = if r ∈ l.map (·.1) then some (storedFor r l) else none := by
  have hA : After f0 [] f0 := by
    refine ⟨hn, fun n c hm hp => ?_, fun r => ?_⟩
    · rw [h0 n c hm] at hp; cases hp
    · cases hg : f0.get? (pklName r) with
      | none => simp
      | some c =>
        have := h0 _ _ (Dict.get?_some_mem hg)
        rw [isPkl_pklName] at this; cases this
  obtain ⟨f, h1, h2⟩ := after_storeAll hA hr
  simp only [List.nil_append] at h2
  obtain ⟨g, h3, h4, h5⟩ := C68_groups h2.nodup h2.tidy o
  refine ⟨f, g, h1, h3, h4, fun r => ?_⟩
  have hd := h2.data r
  split
  · next hm =>
    rw [if_pos hm] at hd
    exact (h5 r _).mpr ⟨_, Dict.get?_some_mem hd, rfl⟩
  · next hm =>
    rw [if_neg hm] at hd
    cases hg : g.get? r with
    | none => rfl
    | some pts =>
      obtain ⟨d, hmem, -⟩ := (h5 r pts).mp hg
      rw [Dict.get?_of_mem_nodup h2.nodup hmem] at hd; cases hd

/-- Two roles, three deliveries, another file in the folder. -/
example : ∃ f, storeAll [("x", ⟨none, [1, 2]⟩), ("y", ⟨none, [5]⟩), ("x", ⟨some "old", [3]⟩)]
      [("jobdata.json", .broken)] = (.ok (), f) ∧
    mergeNetcdfs (some f) (some "out.nc") = .ok ("out.nc", [("x", [1, 2, 3]), ("y", [5])]) :=
  ⟨_, rfl, rfl⟩

/-- A file being written makes merging fail. -/
example : mergeNetcdfs (some [("x.pkl", .obj (some ⟨some "x", [1]⟩)), ("y.pkl", .broken)])
    (some "out.nc") = .error .eofError := by rfl

/-! ## The whole job -/

open Tomato.JobT

/-- The file of a thread as seen in the folder. -/
def fileContent (r : String) : File → Option Content
  | .absent => none
  | .broken => some .broken
  | .data ps => some (.obj (some ⟨some r, ps⟩))

/-- The data files in the folder of a job, whose `k`-th thread has the `k`-th role. -/
def folderOf : List String → List Thr → Folder
  | r :: rs, t :: ts =>
    match fileContent r t.file with
    | none => folderOf rs ts
    | some c => (pklName r, c) :: folderOf rs ts
  | _, _ => []

/-- The deliveries of data, in order. -/
def deliveries (h : List Ev) : List (List Nat) :=
  h.filterMap (fun e => match e with
    | .got _ .data (.reply true _ (some ps)) _ => some ps
    | .got _ .stop (.reply true _ (some ps)) _ => some ps
    | .got _ .final (.reply true _ (some ps)) _ => some ps
    | _ => none)

theorem deliveries_snoc (h : List Ev) (e : Ev) :
    deliveries (h ++ [e]) = deliveries h ++ deliveries [e] := by
  simp [deliveries, List.filterMap_append]

theorem delivered_eq (h : List Ev) : delivered h = (deliveries h).flatten := by
  induction h with
  | nil => rfl
  | cons e h ih =>
    have h1 : delivered (e :: h) = delivered [e] ++ delivered h := by
      simp [delivered, List.flatMap_cons]
    have h2 : deliveries (e :: h) = deliveries [e] ++ deliveries h := by
      unfold deliveries
      rw [← List.filterMap_append]; rfl
    rw [h1, h2, List.flatten_append, ih]
    congr 1
    simp only [delivered, deliveries, List.flatMap_cons, List.flatMap_nil, List.filterMap_cons,
      List.filterMap_nil, List.append_nil]
    split <;> simp_all

/-- The thread is storing data. -/
def storing : Pc → Bool
  | .load _ _ => true
  | .trunc _ _ => true
  | .dump _ _ => true
  | _ => false

theorem present_step {h : List Ev} {t t' : Thr} {e : Ev} {c : Choice}
    (hi : (t.file ≠ .absent ∨ storing t.pc = true) ↔ deliveries h ≠ [])
    (ha : tstep t c = some (t', e)) :
    (t'.file ≠ .absent ∨ storing t'.pc = true) ↔ deliveries (h ++ [e]) ≠ [] := by
  rw [deliveries_snoc]
  obtain ⟨tk, i, pc, cur, names, noList, crashed, file⟩ := t
  obtain ⟨ans, late, due⟩ := c
  cases pc with
  | wait q =>
    simp only [tstep] at ha
    injection ha with ha; injection ha with ha1 ha2; subst ha1; subst ha2
    cases ans with
    | closed => cases q <;> simpa [next, deliveries, storing] using hi
    | reply ok st ps =>
      cases q with
      | ready =>
        cases st with
        | none => simpa [next, deliveries, storing] using hi
        | some sd =>
          simp only [next]
          split <;> simpa [deliveries, storing] using hi
      | start => simpa [next, deliveries, storing] using hi
      | running =>
        simp only [next]
        split
        · simpa [deliveries, storing] using hi
        · split <;> simpa [deliveries, storing] using hi
      | status => simp only [next]; split <;> simpa [deliveries, storing] using hi
      | reset => simpa [next, deliveries, storing] using hi
      | data =>
        cases ps with
        | none => cases ok <;> simpa [next, store, deliveries, storing] using hi
        | some ps => cases ok <;> simp [next, store, deliveries, storing] at hi ⊢ <;> exact hi
      | stop =>
        cases ps with
        | none => cases ok <;> simpa [next, store, deliveries, storing] using hi
        | some ps => cases ok <;> simp [next, store, deliveries, storing] at hi ⊢ <;> exact hi
      | final =>
        cases ps with
        | none => cases ok <;> simpa [next, store, deliveries, storing] using hi
        | some ps => cases ok <;> simp [next, store, deliveries, storing] at hi ⊢ <;> exact hi
  | load ps n =>
    simp only [tstep] at ha
    split at ha
    all_goals (injection ha with ha; injection ha with ha1 ha2; subst ha1; subst ha2)
    all_goals simp_all [deliveries, storing]
  | trunc ps n =>
    simp only [tstep] at ha
    injection ha with ha; injection ha with ha1 ha2; subst ha1; subst ha2
    simp_all [deliveries, storing]
  | dump ps n =>
    simp only [tstep] at ha
    injection ha with ha; injection ha with ha1 ha2; subst ha1; subst ha2
    simp_all [deliveries, storing]
  | fin => simp [tstep] at ha
  | exited => simp [tstep] at ha
  | dead => simp [tstep] at ha
  | cur =>
    simp only [tstep] at ha
    split at ha
    all_goals (injection ha with ha; injection ha with ha1 ha2; subst ha1; subst ha2)
    all_goals simpa [deliveries, storing] using hi
  | hold =>
    simp only [tstep] at ha
    split at ha
    all_goals (injection ha with ha; injection ha with ha1 ha2; subst ha1; subst ha2)
    all_goals simpa [deliveries, storing] using hi
  | trigger =>
    simp only [tstep] at ha
    split at ha
    all_goals (injection ha with ha; injection ha with ha1 ha2; subst ha1; subst ha2)
    all_goals simpa [deliveries, storing] using hi
  | append =>
    simp only [tstep] at ha
    split at ha
    all_goals (injection ha with ha; injection ha with ha1 ha2; subst ha1; subst ha2)
    all_goals simpa [deliveries, storing] using hi
  | due =>
    simp only [tstep] at ha
    injection ha with ha; injection ha with ha1 ha2; subst ha1; subst ha2
    split <;> simpa [deliveries, storing] using hi
  | ask q =>
    simp only [tstep] at ha
    injection ha with ha; injection ha with ha1 ha2; subst ha1; subst ha2
    simpa [deliveries, storing] using hi
  | unset =>
    simp only [tstep] at ha
    injection ha with ha; injection ha with ha1 ha2; subst ha1; subst ha2
    simpa [deliveries, storing] using hi
  | crash =>
    simp only [tstep] at ha
    injection ha with ha; injection ha with ha1 ha2; subst ha1; subst ha2
    simpa [deliveries, storing] using hi

theorem present {tasks : List Task} {h : List Ev} {t : Thr} (hh : THist tasks h t) :
    (t.file ≠ .absent ∨ storing t.pc = true) ↔ deliveries h ≠ [] := by
  induction hh with
  | init => simp [deliveries, storing]
  | step c _ ha ih => exact present_step ih ha
  | push ns _ ih => exact ih

theorem folderOf_mem {rs : List String} {ts : List Thr} {n : String} {c : Content}
    (h : (n, c) ∈ folderOf rs ts) :
    ∃ (k : Nat) (r : String) (t : Thr), rs[k]? = some r ∧ ts[k]? = some t ∧ n = pklName r ∧
      fileContent r t.file = some c := by
  induction rs generalizing ts with
  | nil => simp [folderOf] at h
  | cons r rs ih =>
    cases ts with
    | nil => simp [folderOf] at h
    | cons t ts =>
      simp only [folderOf] at h
      split at h
      · obtain ⟨k, r', t', h1, h2, h3⟩ := ih h
        exact ⟨k + 1, r', t', by simpa using h1, by simpa using h2, h3⟩
      · next c' hc =>
        rcases List.mem_cons.mp h with h | h
        · cases h; exact ⟨0, r, t, rfl, rfl, rfl, hc⟩
        · obtain ⟨k, r', t', h1, h2, h3⟩ := ih h
          exact ⟨k + 1, r', t', by simpa using h1, by simpa using h2, h3⟩

theorem mem_folderOf {rs : List String} {ts : List Thr} {k : Nat} {r : String} {t : Thr}
    {c : Content} (hr : rs[k]? = some r) (ht : ts[k]? = some t) (hc : fileContent r t.file = some c) :
    (pklName r, c) ∈ folderOf rs ts := by
  induction rs generalizing ts k with
  | nil => simp at hr
  | cons r' rs ih =>
    cases ts with
    | nil => simp at ht
    | cons t' ts =>
      cases k with
      | zero =>
        simp at hr ht
        subst hr; subst ht
        simp [folderOf, hc]
      | succ k =>
        simp only [List.getElem?_cons_succ] at hr ht
        have := ih hr ht
        simp only [folderOf]
        split
        · exact this
        · exact List.mem_cons_of_mem _ this

theorem folderOf_nodup {rs : List String} (h : rs.Nodup) (ts : List Thr) :
    (Dict.keys (folderOf rs ts)).Nodup := by
  induction rs generalizing ts with
  | nil => simp [folderOf, Dict.keys]
  | cons r rs ih =>
    obtain ⟨h1, h2⟩ := List.nodup_cons.mp h
    cases ts with
    | nil => simp [folderOf, Dict.keys]
    | cons t ts =>
      simp only [folderOf]
      split
      · exact ih h2 ts
      · have := ih h2 ts
        simp only [Dict.keys, List.map_cons, List.nodup_cons] at this ⊢
        refine ⟨?_, this⟩
        intro hm
        obtain ⟨⟨n, c⟩, hm, hn⟩ := List.mem_map.mp hm
        obtain ⟨k, r', t', h3, -, h4, -⟩ := folderOf_mem hm
        simp only at hn
        have : r = r' := pklName_inj (hn ▸ h4)
        subst this
        exact h1 (List.mem_of_getElem? h3)

/-- **C68** (the whole job): when the main loop of a job has ended, merging succeeds, whatever
happened during the job; and the result has a group for exactly the roles whose component delivered
data, with exactly the delivered data, in order. -/
theorem C68_result {tss : List (List Task)} {h : List JEv} {s : Jb} (hh : Hist (Jb.init tss) h s)
    {b : Bool} (hd : s.main = .done b) {roles : List String} (hn : roles.Nodup)
    (hlen : roles.length = tss.length) (o : String) :
    ∃ g, mergeNetcdfs (some (folderOf roles s.thrs)) (some o) = .ok (o, g) ∧
      (Dict.keys g).Nodup ∧
      (∀ r, (g.get? r).isSome = true → r ∈ roles) ∧
      ∀ (k : Nat) (r : String), roles[k]? = some r →
        g.get? r = if deliveries (proj k h) = [] then none else some (delivered (proj k h)) := by
  obtain ⟨hl, hthr⟩ := hist_thr hh
  have hm := mainOK hh
  unfold MainOK at hm
  rw [hd] at hm
  -- every thread has ended, and its file has exactly the data delivered
  have hfile : ∀ (k : Nat) (t : Thr), s.thrs[k]? = some t →
      t.file = if deliveries (proj k h) = [] then .absent else .data (delivered (proj k h)) := by
    intro k t ht
    obtain ⟨ts, _, hth⟩ := hthr k t ht
    have hj := hm.2 k t ht
    have hst := joined_stays hth hj {}
    have hf := fileOK hth
    have hp := present hth
    obtain ⟨tk, i, pc, cur, names, noList, crashed, file⟩ := t
    have hf' : file ≠ .broken ∧ file.content = delivered (proj k h) ∧
        (file ≠ .absent ↔ deliveries (proj k h) ≠ []) := by
      cases pc <;> simp only [FileOK, storing] at hf hp <;>
        first
        | exact ⟨hf.1, hf.2, by simpa using hp⟩
        | (exfalso; simp only [tstep] at hst; first | (split at hst <;> cases hst) | cases hst)
    obtain ⟨h1, h2, h3⟩ := hf'
    simp only
    split
    · next e =>
      cases file with
      | absent => rfl
      | broken => exact absurd rfl h1
      | data ps => exact absurd e (h3.mp (by simp))
    · next e =>
      cases file with
      | absent => exact absurd rfl (h3.mpr e)
      | broken => exact absurd rfl h1
      | data ps => rw [← h2]; rfl
  have htidy : Tidy (folderOf roles s.thrs) := by
    intro n c hmem _
    obtain ⟨k, r, t, h1, h2, h3, h4⟩ := folderOf_mem hmem
    rw [hfile k t h2] at h4
    split at h4
    · cases h4
    · cases h4; exact .inr ⟨r, _, h3, rfl, rfl⟩
  obtain ⟨g, h1, h2, h3⟩ := C68_groups (folderOf_nodup hn s.thrs) htidy o
  refine ⟨g, h1, h2, fun r hr => ?_, fun k r hr => ?_⟩
  · obtain ⟨pts, hp⟩ := Option.isSome_iff_exists.mp hr
    obtain ⟨d, hmem, -⟩ := (h3 r pts).mp hp
    obtain ⟨k, r', t, e1, -, e2, -⟩ := folderOf_mem hmem
    rw [pklName_inj e2]
    exact List.mem_of_getElem? e1
  · have hkl : k < s.thrs.length := by
      rw [hl, ← hlen]; exact (List.getElem?_eq_some_iff.mp hr).1
    have ht : s.thrs[k]? = some s.thrs[k] := List.getElem?_eq_getElem hkl
    have hf := hfile k _ ht
    by_cases he : deliveries (proj k h) = []
    · rw [if_pos he] at hf ⊢
      cases hg : g.get? r with
      | none => rfl
      | some pts =>
        obtain ⟨d, hmem, -⟩ := (h3 r pts).mp hg
        obtain ⟨k', r', t, e1, e2, e3, e4⟩ := folderOf_mem hmem
        have hrr := pklName_inj e3
        subst hrr
        have hk : k = k' := (List.getElem?_inj (by rw [hlen, ← hl]; exact hkl) hn).mp (hr.trans e1.symm)
        subst hk
        rw [ht] at e2; cases e2
        rw [hf] at e4; cases e4
    · rw [if_neg he] at hf ⊢
      refine (h3 r _).mpr ⟨⟨some r, delivered (proj k h)⟩, mem_folderOf hr ht ?_, rfl⟩
      rw [hf]; rfl

/-- A job with two components, of which one has delivered data. -/
example : ∃ p, JobT.run (Jb.init [[task "x" 1], []])
      (begins 0 (task "x" 1) ++ finishes 0 [1, 2] ++ movesOn 0 ++ resets 0 ++ resets 1 ++
       looks 12) = some p ∧
    p.1.main = .done false ∧ deliveries (proj 0 p.2) = [[1, 2]] ∧ deliveries (proj 1 p.2) = [] ∧
    mergeNetcdfs (some (folderOf ["x", "y"] p.1.thrs)) (some "o") = .ok ("o", [("x", [1, 2])]) :=
  ⟨_, rfl, rfl, rfl, rfl, rfl⟩

end Tomato.Props
