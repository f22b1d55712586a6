import Verif.JobData
import Verif.Props.Races
import Verif.Props.KeptConf

/-!
# C134: a job process is given what was submitted, and the pipeline the job manager has chosen
-/

namespace Tomato.Props.Given
open Tomato.Given

/-! ## Specification -/

/-- What the file of a launch has to say, if `d` is the configuration of the pass and `j` the row of the job. -/
structure Correct (d : Daemon) (st : String) (j : Job) (l : Launch) (x : JobData) : Prop where
  id : x.id = l.jobid
  path : x.path = s!"{st}/{l.jobid}"
  payload : x.payload = j.payload
  pipeline : Dict.get? d.devicefile.pipelines l.pip = some x.pipeline
  repositories : ∀ r v, Dict.get? x.repositories r = some v ↔
    r ∈ j.payload.repositories ∧ ∃ rs, d.settings.repositories = some rs ∧ Dict.get? rs r = some v

/-- The file of a launch is correct. -/
def Told (st : String) (d : Daemon) (w : World) (f : Files) (l : Launch) : Prop :=
  ∃ j ∈ w.jobs, j.id = l.jobid ∧ ∃ x, f st l.jobid = some (some x) ∧ Correct d st j l x

/-! ## The job manager under interference -/

/-- No row is lost, and no payload is changed. -/
def Keeps (w w' : World) : Prop := ∀ j ∈ w.jobs, ∃ j' ∈ w'.jobs, j'.id = j.id ∧ j'.payload = j.payload

theorem Keeps.of_eq {w w' : World} (h : w'.jobs = w.jobs) : Keeps w w' :=
  fun j hj => ⟨j, by rw [h]; exact hj, rfl, rfl⟩

theorem Keeps.trans {a b c : World} (h1 : Keeps a b) (h2 : Keeps b c) : Keeps a c := by
  intro j hj
  obtain ⟨j1, hj1, e1, e2⟩ := h1 j hj
  obtain ⟨j2, hj2, e3, e4⟩ := h2 j1 hj1
  exact ⟨j2, hj2, e3.trans e1, e4.trans e2⟩

theorem Correct.of_payload {d : Daemon} {st : String} {j j' : Job} {l : Launch} {x : JobData}
    (h : Correct d st j l x) (hp : j'.payload = j.payload) : Correct d st j' l x :=
  ⟨h.1, h.2, h.3.trans hp.symm, h.4, by rw [hp]; exact h.5⟩

theorem Told.mono {st : String} {d : Daemon} {w w' : World} {f f' : Files} {l : Launch} (h : Told st d w f l)
    (hk : Keeps w w') (hf : f' st l.jobid = f st l.jobid) : Told st d w' f' l := by
  obtain ⟨j, hj, hid, x, hx, hc⟩ := h
  obtain ⟨j', hj', e1, e2⟩ := hk j hj
  exact ⟨j', hj', e1.trans hid, x, by rw [hf]; exact hx, hc.of_payload e2⟩

/-- What the others do. -/
structure Rely (st : String) (s s' : Both) : Prop where
  inv : SInv st s'.1
  launches : s'.1.launches = s.1.launches
  dirs : s'.1.jobDirs = s.1.jobDirs
  files : s'.2 = s.2
  keeps : Keeps s.1 s'.1

theorem rely_trans (st : String) (a b c : Both) (h1 : Rely st a b) (h2 : Rely st b c) : Rely st a c :=
  ⟨h2.1, h2.2.trans h1.2, h2.3.trans h1.3, h2.4.trans h1.4, h1.5.trans h2.5⟩

/-- What the job manager does in a pass with the configuration `d`. -/
structure Guar (st : String) (d : Daemon) (s s' : Both) : Prop where
  files : ∀ l ∈ s.1.launches, s'.2 st l.jobid = s.2 st l.jobid
  launches : ∀ l ∈ s'.1.launches, l ∈ s.1.launches ∨ Told st d s'.1 s'.2 l

/-- Operations which launch nothing. -/
theorem guar_same {st : String} {d : Daemon} {s s' : Both} (hf : s'.2 = s.2)
    (hl : s'.1.launches = s.1.launches) : Guar st d s s' :=
  ⟨fun _ _ => by rw [hf], fun l h => .inl (by rw [hl] at h; exact h)⟩

variable {st : String} {d : Daemon}

theorem safe_harmless {α : Type} {p : P α} (hp : Prog.Only (S := DB) HarmlessOp p) (s : Both) :
    Prog.Safe (S := JD) dExec (Rely st) (Guar st d) (fun _ _ => True) (lift p) s := by
  induction p generalizing s with
  | pure a => trivial
  | raise e => trivial
  | op o k ih =>
    intro s' _
    exact ⟨guar_same rfl (harmless_frame hp.1 s'.1).2.1, ih _ (hp.2 _) _⟩

/-- Operations which change neither the queue nor folders nor launches. -/
def NeutralOp : Op → Prop
  | .updatePip _ _ | .getPip _ => True
  | _ => False

theorem neutral_frame {o : Op} (h : NeutralOp o) (w : World) : (exec o w).2.jobs = w.jobs ∧
    (exec o w).2.launches = w.launches ∧ (exec o w).2.jobDirs = w.jobDirs := by
  cases o <;> first | exact False.elim h | exact ⟨rfl, rfl, rfl⟩

theorem safe_neutral {α : Type} {J : Both → Prop} (hR : ∀ s s', Rely st s s' → J s → J s')
    (hJ : ∀ s s' : Both, s'.1.jobs = s.1.jobs → s'.1.launches = s.1.launches → s'.1.jobDirs = s.1.jobDirs →
      s'.2 = s.2 → J s → J s') {p : P α} (hp : Prog.Only (S := DB) NeutralOp p) {s : Both} (h : J s) :
    Prog.Safe (S := JD) dExec (Rely st) (Guar st d) (fun _ s' => J s') (lift p) s := by
  induction p generalizing s with
  | pure a => exact h
  | raise e => trivial
  | op o k ih =>
    intro s' hs'
    obtain ⟨h1, h2, h3⟩ := neutral_frame hp.1 s'.1
    exact ⟨guar_same rfl h2, ih _ (hp.2 _) (hJ s' _ h1 h2 h3 rfl (hR _ _ hs' h))⟩

theorem lift_bind {α β : Type} (p : P α) (f : α → P β) :
    lift (Prog.bind p f) = Prog.bind (lift p) (fun a => lift (f a)) := by
  induction p with
  | pure a => rfl
  | raise e => rfl
  | op o k ih =>
    show Prog.op _ _ = Prog.op _ _
    congr; funext r; exact ih r

theorem lift_call (o : Op) : lift (Prog.call (S := DB) o) = Prog.call (S := JD) (.db o) := by
  show Prog.op _ _ = Prog.op _ _
  congr; funext r; cases r <;> rfl

/-- The queue has this job with this payload. -/
def Row (id : Nat) (p : Payload) (w : World) : Prop := ∃ j ∈ w.jobs, j.id = id ∧ j.payload = p

theorem Row.keeps {id : Nat} {p : Payload} {w w' : World} (h : Row id p w) (hk : Keeps w w') : Row id p w' := by
  obtain ⟨j, hj, e1, e2⟩ := h
  obtain ⟨j', hj', e3, e4⟩ := hk j hj
  exact ⟨j', hj', e3.trans e1, e4.trans e2⟩

/-- The job has a folder, and was not launched. -/
structure New (st : String) (id : Nat) (p : Payload) (s : Both) : Prop where
  row : Row id p s.1
  dir : (st, id) ∈ s.1.jobDirs
  fresh : ∀ l ∈ s.1.launches, l.jobid ≠ id

theorem New.rely {id : Nat} {p : Payload} {s s' : Both} (h : New st id p s) (hR : Rely st s s') : New st id p s' :=
  ⟨h.row.keeps hR.keeps, by rw [hR.dirs]; exact h.dir, by rw [hR.launches]; exact h.fresh⟩

theorem New.same {id : Nat} {p : Payload} {s s' : Both} (h : New st id p s) (h1 : s'.1.jobs = s.1.jobs)
    (h2 : s'.1.launches = s.1.launches) (h3 : s'.1.jobDirs = s.1.jobDirs) : New st id p s' :=
  ⟨h.row.keeps (.of_eq h1), by rw [h3]; exact h.dir, by rw [h2]; exact h.fresh⟩

theorem get?_reposOf (repos : Dict String String) (p : Payload) (r v : String) :
    Dict.get? (reposOf repos p) r = some v ↔ r ∈ p.repositories ∧ Dict.get? repos r = some v := by
  unfold reposOf
  induction repos with
  | nil => simp
  | cons kv l ih =>
    obtain ⟨k, x⟩ := kv
    by_cases hk : k = r
    · subst hk
      by_cases hm : k ∈ p.repositories
      · simp [Dict.get?, hm]
      · have : Dict.get? (List.filter (fun kv => p.repositories.contains kv.1) l) k ≠ some v := by
          rw [Ne, ih]; exact fun h => hm h.1
        simp only [List.filter_cons, List.contains_iff_mem, hm, if_false, false_and, iff_false]
        exact this
    · by_cases hm : k ∈ p.repositories
      · simp only [List.filter_cons, List.contains_iff_mem, hm, if_true, Dict.get?, hk, if_false]
        exact ih
      · simp only [List.filter_cons, List.contains_iff_mem, hm, if_false, Dict.get?, hk]
        exact ih

theorem correct_jobargs {jobid : Nat} {job : Job} {n : String} {x : JobData} (hd : d.settings.storage = st)
    (hid : job.id = jobid) (h : jobargs d jobid job n = some x) {j : Job} (hp : j.payload = job.payload) :
    Correct d st j ⟨job.id, n⟩ x := by
  unfold jobargs at h
  cases hr : d.settings.repositories with
  | none => rw [hr] at h; cases h
  | some rs =>
    rw [hr] at h
    cases hpl : Dict.get? d.devicefile.pipelines n with
    | none => rw [hpl] at h; cases h
    | some pl =>
      rw [hpl] at h
      cases h
      refine ⟨rfl, ?_, hp.symm, hpl, fun r v => ?_⟩
      · subst hd hid; rfl
      · rw [hp]
        refine (get?_reposOf rs job.payload r v).trans ⟨fun h => ⟨h.1, rs, hr, h.2⟩, ?_⟩
        rintro ⟨h1, rs', h2, h3⟩
        rw [hr] at h2; cases h2
        exact ⟨h1, h3⟩

theorem put_self (f : Files) (st : String) (id : Nat) (x : Option JobData) : f.put st id x st id = some x := by
  simp [Files.put]

theorem put_other (f : Files) (st : String) {id id' : Nat} (x : Option JobData) (h : id' ≠ id) :
    f.put st id x st id' = f st id' := by
  simp [Files.put, h]

theorem safe_assignJob (hd : d.settings.storage = st) (jobid : Nat) (job : Job)
    (hid : job.id = jobid) (ns : List String) (avail : Dict String PipState) (s : Both)
    (hrow : Row jobid job.payload s.1) :
    Prog.Safe (S := JD) dExec (Rely st) (Guar st d) (fun _ _ => True) (assignJobD d jobid job ns avail) s := by
  induction ns with
  | nil => trivial
  | cons n ns ih =>
    rw [assignJobD]
    cases hav : Dict.get? avail n with
    | none => exact ih
    | some ps =>
      by_cases hc : (!ps.ready) = true ∨ ps.sampleid ≠ some job.payload.sample
      · simp only [hc, if_true]; exact ih
      · simp only [hc, if_false, Prog.bind_eq]
        -- the folder
        refine Prog.safe_bind (Q := fun _ s' => New st jobid job.payload s') ?_ ?_
        · show Prog.Safe _ _ _ _ (lift (Prog.call _)) _
          rw [lift_call]
          refine Prog.safe_call (S := JD) ?_ ?_
          · intro s' _
            refine guar_same rfl ?_
            simp only [dExec, exec]
            split <;> rfl
          · intro s' hR a ha
            by_cases hex : (d.settings.storage, jobid) ∈ s'.1.jobDirs
            · simp only [dExec, exec, hex, if_true] at ha
              cases ha
            · simp only [dExec, exec, hex, if_false]
              refine ⟨hrow.keeps hR.keeps, by rw [hd]; simp, fun l hl hl' => ?_⟩
              have := hR.inv.2.1 l hl
              rw [hl'] at this
              rw [hd] at hex
              exact hex this
        · intro _ s1 h1
          cases hx : jobargs d jobid job n with
          | none => trivial
          | some x =>
            -- the file
            refine Prog.safe_bind (Q := fun _ s' => New st jobid job.payload s') ?_ ?_
            · refine Prog.safe_call (S := JD) ?_ ?_
              · intro s' hR
                have hn := h1.rely hR
                simp only [dExec]
                split
                · refine ⟨fun l hl => ?_, fun l hl => .inl hl⟩
                  rw [hd]
                  exact put_other _ _ _ (hn.fresh l hl)
                · exact guar_same rfl rfl
              · intro s' hR a ha
                have hn := h1.rely hR
                simp only [dExec]
                split
                · exact ⟨hn.1, hn.2, hn.3⟩
                · exact hn
            · intro _ s2 h2
              refine Prog.safe_bind (Q := fun _ s' => New st jobid job.payload s' ∧ s'.2 st jobid = some (some x)) ?_ ?_
              · refine Prog.safe_call (S := JD) ?_ ?_
                · intro s' hR
                  have hn := h2.rely hR
                  refine ⟨fun l hl => ?_, fun l hl => .inl hl⟩
                  simp only [dExec]
                  rw [hd]
                  exact put_other _ _ _ (hn.fresh l hl)
                · intro s' hR a ha
                  have hn := h2.rely hR
                  refine ⟨⟨hn.1, hn.2, hn.3⟩, ?_⟩
                  simp only [dExec]
                  rw [hd]
                  exact put_self ..
              · intro _ s3 h3
                -- the pipeline
                refine Prog.safe_bind (safe_neutral (J := fun s' => New st jobid job.payload s' ∧
                  s'.2 st jobid = some (some x)) ?_ ?_ ?_ h3) ?_
                · exact fun s s' hR h => ⟨h.1.rely hR, by rw [hR.files]; exact h.2⟩
                · exact fun s s' e1 e2 e3 e4 h => ⟨h.1.same e1 e2 e3, by rw [e4]; exact h.2⟩
                · unfold updatePip
                  exact Prog.only_bind ((Do.only_updatePip _ _).mpr trivial)
                    (fun _ => (Do.only_getPip _).mpr trivial)
                · intro _ s4 h4
                  -- the process
                  refine Prog.safe_bind (Q := fun _ _ => True) ?_ ?_
                  · show Prog.Safe _ _ _ _ (lift (Prog.call _)) _
                    rw [lift_call]
                    refine Prog.safe_call (S := JD) ?_ (fun _ _ _ _ => trivial)
                    intro s' hR
                    have hn := h4.1.rely hR
                    refine ⟨fun _ _ => rfl, fun l hl => ?_⟩
                    simp only [dExec, exec] at hl
                    rcases List.mem_append.mp hl with hl | hl
                    · exact .inl hl
                    · right
                      rw [List.mem_singleton.mp hl]
                      obtain ⟨j, hj, e1, e2⟩ := hn.row
                      refine ⟨j, hj, by rw [e1, hid], x, ?_, correct_jobargs hd hid hx e2⟩
                      show s'.2 st job.id = _
                      rw [hR.files, hid]; exact h4.2
                  · intro _ s5 _
                    have hq : ∀ o, QuietOp o → HarmlessOp o := fun _ h => quiet_harmless h
                    refine Prog.safe_bind (safe_harmless (Do.only_now.mpr trivial) _) (fun t s6 _ => ?_)
                    exact Prog.safe_bind (safe_harmless (only_updateJobId hq _ _ trivial) _)
                      (fun _ _ _ => trivial)

theorem safe_actionLoop (hd : d.settings.storage = st) (matched : Dict Nat (List String)) (ids : List Nat)
    (avail : Dict String PipState) (s : Both) :
    Prog.Safe (S := JD) dExec (Rely st) (Guar st d) (fun _ _ => True) (actionLoopD d matched ids avail) s := by
  induction ids generalizing avail s with
  | nil => trivial
  | cons id ids ih =>
    unfold actionLoopD
    refine Prog.safe_bind (Q := fun job s' => job.id = id ∧ Row id job.payload s'.1) ?_ ?_
    · intro s' _
      refine ⟨guar_same rfl rfl, ?_⟩
      show Prog.Safe _ _ _ _ (lift (match s'.1.job? id with | some j => Prog.pure j | none => Prog.raise _)) _
      cases hj : s'.1.job? id with
      | none => trivial
      | some j =>
        obtain ⟨h1, h2⟩ := job?_some hj
        exact ⟨h1, j, h2, h1, rfl⟩
    · rintro job s1 ⟨hid, hrow⟩
      cases Dict.get? matched id with
      | none => trivial
      | some pnames =>
        exact Prog.safe_bind (safe_assignJob hd id job hid _ avail s1 hrow) (fun _ s2 _ => ih _ s2)

theorem safe_pass (hd : d.settings.storage = st) (s : Both) :
    Prog.Safe (S := JD) dExec (Rely st) (Guar st d) (fun _ _ => True) (passD d) s := by
  have hq : ∀ o, QuietOp o → HarmlessOp o := fun _ h => quiet_harmless h
  unfold passD
  refine Prog.safe_bind (safe_harmless (only_manageRunning hq
    (fun _ => trivial) (fun _ _ _ => trivial) (fun _ _ _ _ => trivial)) _) (fun _ s1 _ => ?_)
  refine Prog.safe_bind (safe_harmless (only_checkQueued hq (fun _ => trivial) d) _) (fun m s2 _ => ?_)
  unfold actionQueuedD
  refine Prog.safe_bind (safe_harmless ((Do.only_pipsWhere _).mpr trivial) _) (fun free s3 _ => ?_)
  exact safe_actionLoop hd _ _ _ _

/-! ## The system -/

/-- The program besides the job manager, in the system without the file. -/
def OtherRel (st : String) (s : DSys) : Other → P Unit → Prop
  | .prog p, q => p = q
  | .job l pid r m, q => l ∈ s.w.launches ∧ q = readData s.files st l pid r m

/-- The corresponding state of the system of `Verif/System.lean`. -/
structure Rel (st : String) (s : DSys) (b : Sys) : Prop where
  w : b.w = s.w
  jm : Sim s.jm b.jm
  started : b.started = s.started
  length : s.others.length = b.others.length
  others : ∀ (i : Nat) (o : Other) (q : P Unit), s.others[i]? = some o → b.others[i]? = some q → OtherRel st s o q

/-- The invariant. -/
structure Inv (st : String) (s : DSys) : Prop where
  base : ∃ b, Reachable st b ∧ Rel st s b
  told : ∀ l ∈ s.w.launches, ∃ d ∈ s.passes, Told st d s.w s.files l
  jm : s.jm.ended = true ∨ ∃ d, s.passes.head? = some d ∧
    Prog.Safe (S := JD) dExec (Rely st) (Guar st d) (fun _ _ => True) s.jm (s.w, s.files)

/-- What a step does. -/
structure Facts (st : String) (s s' : DSys) : Prop where
  files : ∀ l ∈ s.w.launches, s'.files st l.jobid = s.files st l.jobid
  launches : ∀ l ∈ s'.w.launches, l ∈ s.w.launches ∨
    ∃ d, s.passes.head? = some d ∧ d ∈ s'.passes ∧ Told st d s'.w s'.files l
  keeps : Keeps s.w s'.w
  passes : ∀ d ∈ s.passes, d ∈ s'.passes
  mono : ∀ l ∈ s.w.launches, l ∈ s'.w.launches
  step : s'.w = s.w ∨ ∃ b b', Reachable st b ∧ Step st b b' ∧ b.w = s.w ∧ b'.w = s'.w

theorem keeps_steps {b b' : Sys} (hb : Reachable st b) (h : Steps st b b') : Keeps b.w b'.w := by
  intro j hj
  obtain ⟨j', h1, h2, h3, -⟩ := C03_records_immutable hb h j hj
  exact ⟨j', h1, h2, h3⟩

theorem told_step {s s' : DSys} (h : Inv st s) (hf : Facts st s s') :
    ∀ l ∈ s'.w.launches, ∃ d ∈ s'.passes, Told st d s'.w s'.files l := by
  intro l hl
  rcases hf.launches l hl with hl | ⟨d, -, hd, ht⟩
  · obtain ⟨d, hd, ht⟩ := h.told l hl
    exact ⟨d, hf.passes d hd, ht.mono hf.keeps (hf.files l hl)⟩
  · exact ⟨d, hd, ht⟩

/-- The world and the files stay as they are. -/
theorem facts_same {s s' : DSys} (hw : s'.w = s.w) (hf : s'.files = s.files)
    (hp : ∀ d ∈ s.passes, d ∈ s'.passes) : Facts st s s' :=
  ⟨fun _ _ => by rw [hf], fun l hl => .inl (by rw [hw] at hl; exact hl), .of_eq (by rw [hw]), hp, fun l hl => by rw [hw]; exact hl, .inl hw⟩

theorem otherRel_same {s s' : DSys} (hw : s'.w = s.w) (hf : s'.files = s.files) {o : Other} {q : P Unit}
    (h : OtherRel st s o q) : OtherRel st s' o q := by
  cases o with
  | prog p => exact h
  | job l pid r m => exact ⟨by rw [hw]; exact h.1, by rw [hf]; exact h.2⟩

theorem otherRel_step {s : DSys} (s' : DSys) (hl : ∀ l ∈ s.w.launches, l ∈ s'.w.launches)
    (hf : ∀ l ∈ s.w.launches, s'.files st l.jobid = s.files st l.jobid) {o : Other} {q : P Unit}
    (h : OtherRel st s o q) : OtherRel st s' o q := by
  cases o with
  | prog p => exact h
  | job l pid r m =>
    refine ⟨hl l h.1, ?_⟩
    rw [h.2]
    unfold readData
    rw [hf l h.1]

theorem set_rel {s : DSys} {os : List Other} {bs : List (P Unit)} {i : Nat} {o : Other} {q : P Unit}
    (h : ∀ (i : Nat) (o : Other) (q : P Unit), os[i]? = some o → bs[i]? = some q → OtherRel st s o q)
    (hr : OtherRel st s o q) : ∀ (k : Nat) (o' : Other) (q' : P Unit), (os.set i o)[k]? = some o' →
      (bs.set i q)[k]? = some q' → OtherRel st s o' q' := by
  intro k o' q' h1 h2
  by_cases hk : i = k
  · subst hk
    rw [List.getElem?_set_self' ] at h1 h2
    cases ho : os[i]? with
    | none => rw [ho] at h1; cases h1
    | some x =>
      cases hq : bs[i]? with
      | none => rw [hq] at h2; cases h2
      | some y =>
        rw [ho] at h1; rw [hq] at h2
        cases h1; cases h2; exact hr
  · rw [List.getElem?_set_ne hk] at h1 h2
    exact h k o' q' h1 h2

theorem append_rel {s : DSys} {os : List Other} {bs : List (P Unit)} {o : Other} {q : P Unit}
    (hlen : os.length = bs.length)
    (h : ∀ (i : Nat) (o : Other) (q : P Unit), os[i]? = some o → bs[i]? = some q → OtherRel st s o q)
    (hr : OtherRel st s o q) : ∀ (k : Nat) (o' : Other) (q' : P Unit), (os ++ [o])[k]? = some o' →
      (bs ++ [q])[k]? = some q' → OtherRel st s o' q' := by
  intro k o' q' h1 h2
  by_cases hk : k < os.length
  · rw [List.getElem?_append_left hk] at h1
    rw [List.getElem?_append_left (by omega)] at h2
    exact h k o' q' h1 h2
  · rw [List.getElem?_append_right (by omega)] at h1
    rw [List.getElem?_append_right (by omega)] at h2
    rw [hlen] at h1
    cases hn : k - bs.length with
    | zero => rw [hn] at h1 h2; cases h1; cases h2; exact hr
    | succ n => rw [hn] at h1; cases h1

/-- The others do not disturb the job manager. -/
theorem jm_other {s s' : DSys} {b b' : Sys} (hb : Reachable st b) (hb' : Reachable st b') (hk : Step st b b')
    (hw : b.w = s.w) (hw' : b'.w = s'.w) (ho : OtherStep b.w b'.w) (hf : s'.files = s.files) (hjm : s'.jm = s.jm)
    (hp : s'.passes = s.passes)
    (h : s.jm.ended = true ∨ ∃ d, s.passes.head? = some d ∧
      Prog.Safe (S := JD) dExec (Rely st) (Guar st d) (fun _ _ => True) s.jm (s.w, s.files)) :
    (s'.jm.ended = true ∨ ∃ d, s'.passes.head? = some d ∧
      Prog.Safe (S := JD) dExec (Rely st) (Guar st d) (fun _ _ => True) s'.jm (s'.w, s'.files)) ∧ Facts st s s' := by
  have hs := (sRely_other _ _ (sInv_engine hb).2.1 ho).1
  have hR : Rely st (s.w, s.files) (s'.w, s'.files) := by
    refine ⟨?_, ?_, ?_, hf, ?_⟩
    · show SInv st s'.w
      rw [← hw']; exact (sInv_engine hb').2.1
    · show s'.w.launches = s.w.launches
      rw [← hw', ← hw]; exact hs.2.2.1
    · show s'.w.jobDirs = s.w.jobDirs
      rw [← hw', ← hw]; exact hs.2.2.2
    · show Keeps s.w s'.w
      rw [← hw', ← hw]; exact keeps_steps hb (.tail (.refl _) hk)
  refine ⟨?_, ⟨fun _ _ => by rw [hf], fun l hl => .inl ?_, hR.keeps, by rw [hp]; exact fun _ h => h,
    fun l hl => ?_, .inr ⟨b, b', hb, hk, hw, hw'⟩⟩⟩
  · rw [hjm, hp]
    rcases h with h | ⟨d, hd, h⟩
    · exact .inl h
    · exact .inr ⟨d, hd, Prog.safe_rely (rely_trans st) (fun _ _ => trivial) h hR⟩
  · have := hR.launches
    rw [← this]; exact hl
  · have := hR.launches
    show l ∈ s'.w.launches
    rw [this]; exact hl

theorem inv_step {s s' : DSys} (hi : Inv st s) (h : DStep st s s')
    (hn : ∀ d ∈ s.passes, NamesMatch d.devicefile) : Inv st s' ∧ Facts st s s' := by
  obtain ⟨b, hb, hr⟩ := hi.base
  obtain ⟨a, h⟩ := h
  cases a with
  | jmStart d =>
    simp only [dact] at h
    split at h
    · next hd =>
      cases h
      have hf : Facts st s { s with jm := passD d, passes := d :: s.passes } :=
        facts_same rfl rfl (fun x hx => List.mem_cons_of_mem _ hx)
      refine ⟨⟨⟨{ b with jm := jobManagerPass d }, ?_, ⟨hr.w, sim_pass d, hr.started, hr.length, hr.others⟩⟩,
        told_step hi hf, .inr ⟨d, rfl, safe_pass hd.2 _⟩⟩, hf⟩
      refine Steps.tail (Steps.tail hb ⟨.jmKill, rfl⟩) ⟨.jmStart d, ?_⟩
      simp only [act, Prog.ended, hd.2, and_self, if_true]
    · cases h
  | jmStep =>
    cases hjm : s.jm with
    | pure a => simp only [dact, hjm] at h; cases h
    | raise e => simp only [dact, hjm] at h; cases h
    | op o k =>
      simp only [dact, hjm] at h
      cases h
      rcases hi.jm with he | ⟨d, hd, hs⟩
      · rw [hjm] at he; cases he
      · rw [hjm] at hs
        have hinv := (sInv_engine hb).2.1
        rw [hr.w] at hinv
        obtain ⟨hG, hs'⟩ := hs (s.w, s.files) ⟨hinv, rfl, rfl, rfl, .of_eq rfl⟩
        have hsim := hr.jm
        rw [hjm] at hsim
        generalize hbj : b.jm = bj at hsim
        cases hsim with
        | db o k k' hk =>
          have hst : Step st b { b with jm := k' (exec o b.w).1, w := (exec o b.w).2 } :=
            ⟨.jmStep, by simp only [act, stepProg, hbj]⟩
          have hmono : ∀ l ∈ s.w.launches, l ∈ (exec o s.w).2.launches := launches_mono o s.w
          have hkeep : Keeps s.w (exec o s.w).2 := by
            have := keeps_steps hb (.tail (.refl _) hst)
            rw [hr.w] at this; exact this
          have hf : Facts st s { s with jm := k (dExec (.db o) (s.w, s.files)).1, w := (dExec (.db o) (s.w, s.files)).2.1, files := (dExec (.db o) (s.w, s.files)).2.2 } :=
            ⟨hG.files, fun l hl => (hG.launches l hl).imp id (fun ht => ⟨d, hd, List.mem_of_head? hd, ht⟩),
              hkeep, fun _ h => h, hmono, .inr ⟨b, _, hb, hst, hr.w, by show (exec o b.w).2 = (exec o s.w).2; rw [hr.w]⟩⟩
          refine ⟨⟨⟨_, .tail hb hst, ⟨?_, ?_, hr.started, hr.length, fun i o' q h1 h2 => ?_⟩⟩,
            told_step hi hf, .inr ⟨d, hd, hs'⟩⟩, hf⟩
          · show (exec o b.w).2 = (exec o s.w).2
            rw [hr.w]
          · show Sim (k (exec o s.w).1) (k' (exec o b.w).1)
            rw [hr.w]; exact hk _
          · exact otherRel_step { s with jm := k (dExec (.db o) (s.w, s.files)).1, w := (dExec (.db o) (s.w, s.files)).2.1, files := (dExec (.db o) (s.w, s.files)).2.2 } hmono hG.files (hr.others i o' q h1 h2)
        | file o k p hk =>
          have hw : (dExec (.file o) (s.w, s.files)).2.1 = s.w := by
            cases o with
            | «open» st' id => simp only [dExec]; split <;> rfl
            | dump st' id x => rfl
          have hf : Facts st s { s with jm := k (dExec (.file o) (s.w, s.files)).1, w := (dExec (.file o) (s.w, s.files)).2.1, files := (dExec (.file o) (s.w, s.files)).2.2 } :=
            ⟨hG.files, fun l hl => (hG.launches l hl).imp id (fun ht => ⟨d, hd, List.mem_of_head? hd, ht⟩),
              .of_eq (congrArg World.jobs hw), fun _ h => h, fun l hl => by rw [← hw] at hl; exact hl, .inl hw⟩
          refine ⟨⟨⟨b, hb, ⟨hr.w.trans hw.symm, by rw [hbj]; exact hk _, hr.started, hr.length, fun i o' q h1 h2 => ?_⟩⟩,
            told_step hi hf, .inr ⟨d, hd, hs'⟩⟩, hf⟩
          refine otherRel_step { s with jm := k (dExec (.file o) (s.w, s.files)).1, w := (dExec (.file o) (s.w, s.files)).2.1, files := (dExec (.file o) (s.w, s.files)).2.2 } (fun l hl => ?_) hG.files (hr.others i o' q h1 h2)
          show l ∈ (dExec (.file o) (s.w, s.files)).2.1.launches
          rw [hw]; exact hl
  | jmKill =>
    cases h
    have hf : Facts st s { s with jm := .pure () } := facts_same rfl rfl (fun _ h => h)
    exact ⟨⟨⟨{ b with jm := .pure () }, .tail hb ⟨.jmKill, rfl⟩, ⟨hr.w, .pure _, hr.started, hr.length, hr.others⟩⟩,
      told_step hi hf, .inl rfl⟩, hf⟩
  | spawn c =>
    simp only [dact] at h
    cases hc : c.launch with
    | some l => rw [hc] at h; cases h
    | none =>
      rw [hc] at h
      cases h
      have hf : Facts st s { s with others := s.others ++ [.prog c.prog] } := facts_same rfl rfl (fun _ h => h)
      refine ⟨⟨⟨{ b with others := b.others ++ [c.prog] }, .tail hb ⟨.spawn c, by simp only [act, hc]⟩,
        ⟨hr.w, hr.jm, hr.started, by simp [hr.length], ?_⟩⟩, told_step hi hf, hi.jm⟩, hf⟩
      exact append_rel hr.length (fun i o q h1 h2 => otherRel_same (s := s) rfl rfl (hr.others i o q h1 h2)) rfl
  | start l pid r m quiet =>
    simp only [dact] at h
    split at h
    · next hlt =>
      cases h
      have hl : l ∈ s.w.launches := List.count_pos_iff.mp (by omega)
      have hf : Facts st s { s with others := s.others ++ [.job l pid r m], started := s.started ++ [l] } :=
        facts_same rfl rfl (fun _ h => h)
      obtain ⟨d, hd, j, hj, hid, x, hx, hc⟩ := hi.told l hl
      have hread : readData s.files st l pid r m = tomatoJob x.id pid x.payload x.pipeline.name (r x.path) m := by
        unfold readData; rw [hx]
      have hla : (⟨x.id, x.pipeline.name⟩ : Launch) = l := by
        rw [hc.id, hn d hd _ _ hc.pipeline]
      refine ⟨⟨⟨{ b with others := b.others ++ [readData s.files st l pid r m], started := b.started ++ [l] }, ?_,
        ⟨hr.w, hr.jm, by show b.started ++ [l] = _; rw [hr.started], by simp [hr.length], ?_⟩⟩,
        told_step hi hf, hi.jm⟩, hf⟩
      · refine .tail hb ⟨.spawn (.tomatoJob x.id pid x.payload x.pipeline.name (r x.path) m quiet), ?_⟩
        simp only [act, Cmd.launch, hla, hr.started, hr.w, hlt, if_true, hread, Cmd.prog]
      · exact append_rel hr.length (fun i o q h1 h2 => otherRel_same (s := s) rfl rfl (hr.others i o q h1 h2)) ⟨hl, rfl⟩
    · cases h
  | step i =>
    simp only [dact] at h
    cases ho : s.others[i]? with
    | none => rw [ho] at h; cases h
    | some o =>
      have hlt : i < b.others.length := by
        rw [← hr.length]; exact (List.getElem?_eq_some_iff.mp ho).1
      have hq : b.others[i]? = some b.others[i] := List.getElem?_eq_getElem hlt
      have hrel := hr.others i _ _ ho hq
      generalize hbi : b.others[i] = q at hrel hq
      rw [ho] at h
      cases o with
      | job l pid r m =>
        simp only at h
        cases h
        have hf : Facts st s { s with others := s.others.set i (.prog (readData s.files st l pid r m)) } :=
          facts_same rfl rfl (fun _ h => h)
        refine ⟨⟨⟨b, hb, ⟨hr.w, hr.jm, hr.started, by simp [hr.length], ?_⟩⟩, told_step hi hf, hi.jm⟩, hf⟩
        have hset : b.others = b.others.set i q := by
          rw [← hbi]; exact (List.set_getElem_self hlt).symm
        intro k o' q' h1 h2
        rw [hset] at h2
        exact set_rel (fun i o q h1 h2 => otherRel_same (s := s) rfl rfl (hr.others i o q h1 h2)) (o := .prog (readData s.files st l pid r m)) (q := q) hrel.2.symm k o' q' h1 h2
      | prog p =>
        have hpq : p = q := hrel
        subst hpq
        simp only at h
        cases p with
        | pure a => cases h
        | raise e => cases h
        | op o k =>
          simp only [stepProg] at h
          cases h
          have hst : Step st b { b with others := b.others.set i (k (exec o b.w).1), w := (exec o b.w).2 } :=
            ⟨.step i, by simp only [act, hq, stepProg]⟩
          have hos : OtherStep b.w (exec o b.w).2 := by
            obtain ⟨c, hc1, hc2⟩ := reachable_others hb _ (List.mem_of_getElem? hq)
            exact .cmd c hc1 o hc2.1 rfl
          obtain ⟨hjm, hf⟩ := jm_other (s := s) (s' := { s with others := s.others.set i (.prog (k (exec o s.w).1)), w := (exec o s.w).2 })
            hb (.tail hb hst) hst hr.w (by show (exec o b.w).2 = (exec o s.w).2; rw [hr.w]) hos rfl rfl rfl hi.jm
          refine ⟨⟨⟨_, .tail hb hst, ⟨?_, hr.jm, hr.started, by simp [hr.length], ?_⟩⟩, told_step hi hf, hjm⟩, hf⟩
          · show (exec o b.w).2 = (exec o s.w).2
            rw [hr.w]
          · refine set_rel (fun j o' q h1 h2 => otherRel_step { s with others := s.others.set i (.prog (k (exec o s.w).1)), w := (exec o s.w).2 } (launches_mono o s.w) (fun _ _ => rfl) (hr.others j o' q h1 h2)) ?_
            show k (exec o s.w).1 = k (exec o b.w).1
            rw [hr.w]
  | kill i =>
    cases h
    have hf : Facts st s { s with others := s.others.set i (.prog (.pure ())) } := facts_same rfl rfl (fun _ h => h)
    refine ⟨⟨⟨{ b with others := b.others.set i (.pure ()) }, .tail hb ⟨.kill i, rfl⟩,
      ⟨hr.w, hr.jm, hr.started, by simp [hr.length], ?_⟩⟩, told_step hi hf, hi.jm⟩, hf⟩
    exact set_rel (fun i o q h1 h2 => otherRel_same (s := s) rfl rfl (hr.others i o q h1 h2)) rfl
  | env e =>
    cases h
    have hst : Step st b { b with w := e.apply b.w } := ⟨.env e, rfl⟩
    obtain ⟨hjm, hf⟩ := jm_other (s := s) (s' := { s with w := e.apply s.w }) hb (.tail hb hst) hst
      hr.w (by show e.apply b.w = e.apply s.w; rw [hr.w]) (.env e rfl) rfl rfl rfl hi.jm
    refine ⟨⟨⟨_, .tail hb hst, ⟨by show e.apply b.w = e.apply s.w; rw [hr.w], hr.jm, hr.started, hr.length, ?_⟩⟩,
      told_step hi hf, hjm⟩, hf⟩
    intro i o q h1 h2
    refine otherRel_step (s := s) { s with w := e.apply s.w } (fun l hl => ?_) (fun _ _ => rfl) (hr.others i o q h1 h2)
    show l ∈ (e.apply s.w).launches
    rw [(e.apply_eq s.w).2.2.2.2.2]; exact hl

theorem inv_init : Inv st { w := {}, files := fun _ _ => none } :=
  ⟨⟨Sys.init, .refl _, ⟨rfl, .pure _, rfl, rfl, by intro i o q h; cases h⟩⟩, (by intro l hl; cases hl), .inl rfl⟩

theorem steps_facts {s s' : DSys} (hi : Inv st s) (h : DSteps st s s')
    (hn : ∀ d ∈ s'.passes, NamesMatch d.devicefile) : Inv st s' ∧
      (∀ l ∈ s.w.launches, l ∈ s'.w.launches ∧ s'.files st l.jobid = s.files st l.jobid) ∧ Keeps s.w s'.w := by
  induction h with
  | refl => exact ⟨hi, fun l hl => ⟨hl, rfl⟩, .of_eq rfl⟩
  | @tail s1 s2 _ h2 ih =>
    have hp : ∀ d ∈ s1.passes, d ∈ s2.passes := by
      obtain ⟨a, h2⟩ := h2
      cases a <;> simp only [dact] at h2
      · split at h2
        · cases h2; exact fun d hd => List.mem_cons_of_mem _ hd
        · cases h2
      · split at h2 <;> cases h2; exact fun _ h => h
      · cases h2; exact fun _ h => h
      · split at h2 <;> cases h2; exact fun _ h => h
      · split at h2 <;> cases h2; exact fun _ h => h
      · split at h2
        · cases h2
        · cases h2; exact fun _ h => h
        · split at h2 <;> cases h2; exact fun _ h => h
      · cases h2; exact fun _ h => h
      · cases h2; exact fun _ h => h
    obtain ⟨h1, hl, hk⟩ := ih (fun d hd => hn d (hp d hd))
    obtain ⟨h3, hf⟩ := inv_step h1 h2 (fun d hd => hn d (hp d hd))
    refine ⟨h3, fun l hl' => ⟨?_, ?_⟩, hk.trans hf.keeps⟩
    · exact hf.mono l (hl l hl').1
    · rw [hf.files l (hl l hl').1]; exact (hl l hl').2

theorem reach_inv {s : DSys} (h : DReachable st s) (hn : ∀ d ∈ s.passes, NamesMatch d.devicefile) : Inv st s :=
  (steps_facts inv_init h hn).1

/-! ## C134 -/

/-- **C134**: for every launch there is a complete file, which has the id of the job, its folder, the payload that
was submitted, the pipeline of the launch as the job manager knew it in one of its passes, and of the repositories
in the settings of this pass those the payload asks for. -/
theorem C134_told {s : DSys} (h : DReachable st s) (hn : ∀ d ∈ s.passes, NamesMatch d.devicefile)
    {l : Launch} (hl : l ∈ s.w.launches) :
    ∃ d ∈ s.passes, ∃ j ∈ s.w.jobs, j.id = l.jobid ∧ ∃ x, s.files st l.jobid = some (some x) ∧ Correct d st j l x :=
  (reach_inv h hn).told l hl

/-- The pass is the one in which the job is launched. -/
theorem C134_launch {s s' : DSys} (h : DReachable st s) (hn : ∀ d ∈ s.passes, NamesMatch d.devicefile)
    (hs : DStep st s s') {l : Launch} (hl : l ∈ s'.w.launches) (hl' : l ∉ s.w.launches) :
    ∃ d, s.passes.head? = some d ∧ ∃ j ∈ s'.w.jobs, j.id = l.jobid ∧
      ∃ x, s'.files st l.jobid = some (some x) ∧ Correct d st j l x := by
  rcases (inv_step (reach_inv h hn) hs hn).2.launches l hl with hl | ⟨d, hd, -, ht⟩
  · exact absurd hl hl'
  · exact ⟨d, hd, ht⟩

/-- The file of a launched job is never written again. -/
theorem C134_kept {s s' : DSys} (h : DReachable st s) (hs : DSteps st s s')
    (hn : ∀ d ∈ s'.passes, NamesMatch d.devicefile) (hn' : ∀ d ∈ s.passes, NamesMatch d.devicefile)
    {l : Launch} (hl : l ∈ s.w.launches) : s'.files st l.jobid = s.files st l.jobid :=
  ((steps_facts (reach_inv h hn') hs hn).2.1 l hl).2

/-- **C134**, what the process does with it: whenever a process that was started for a launch reads its file, it goes
on as `tomato_job` for the job and the pipeline of this launch, with the payload of this job in the queue. -/
theorem C134_process {s : DSys} (h : DReachable st s) (hn : ∀ d ∈ s.passes, NamesMatch d.devicefile)
    {i : Nat} {l : Launch} {pid : Nat} {r : String → String} {m : P (Option Nat)}
    (hi : s.others[i]? = some (.job l pid r m)) :
    ∃ j ∈ s.w.jobs, j.id = l.jobid ∧ ∃ s', dact st s (.step i) = some s' ∧ s'.w = s.w ∧
      s'.others[i]? = some (.prog (tomatoJob l.jobid pid j.payload l.pip (r s!"{st}/{l.jobid}") m)) := by
  have hinv := reach_inv h hn
  obtain ⟨b, -, hr⟩ := hinv.base
  have hlt : i < s.others.length := (List.getElem?_eq_some_iff.mp hi).1
  have hrel := hr.others i _ _ hi (List.getElem?_eq_getElem (by rw [← hr.length]; exact hlt))
  obtain ⟨d, hd, j, hj, hid, x, hx, hc⟩ := hinv.told l hrel.1
  refine ⟨j, hj, hid, { s with others := s.others.set i (.prog (readData s.files st l pid r m)) },
    by simp only [dact, hi], rfl, ?_⟩
  show (s.others.set i _)[i]? = _
  rw [List.getElem?_set_self hlt]
  unfold readData
  simp only [hx]
  rw [hc.id, hc.payload, hc.path, hn d hd _ _ hc.pipeline]

/-- Every state of the system in which job processes learn from the file what to do is one of the system in which
they know it: what was proved about all states of the latter holds here. -/
theorem C134_states (Φ : World → Prop) (hΦ : ∀ b, Reachable st b → Φ b.w) {s : DSys} (h : DReachable st s)
    (hn : ∀ d ∈ s.passes, NamesMatch d.devicefile) : Φ s.w := by
  obtain ⟨b, hb, hr⟩ := (reach_inv h hn).base
  rw [← hr.w]; exact hΦ b hb

/-- The same for steps. -/
theorem C134_steps (Φ : World → World → Prop) (h0 : ∀ w, Φ w w)
    (hΦ : ∀ b b', Reachable st b → Step st b b' → Φ b.w b'.w) {s s' : DSys} (h : DReachable st s)
    (hn : ∀ d ∈ s.passes, NamesMatch d.devicefile) (hs : DStep st s s') : Φ s.w s'.w := by
  rcases (inv_step (reach_inv h hn) hs hn).2.step with e | ⟨b, b', hb, hst, e1, e2⟩
  · rw [e]; exact h0 _
  · rw [← e1, ← e2]; exact hΦ b b' hb hst

/-! ## An example -/

/-- An action of the system without the file; job processes are not started by these. -/
def ofAct : Act → DAct
  | .jmStart d => .jmStart d
  | .jmStep => .jmStep
  | .jmKill => .jmKill
  | .spawn c => .spawn c
  | .step i => .step i
  | .kill i => .kill i
  | .env e => .env e

/-- The daemon with two repositories. -/
def dRepo : Daemon :=
  { devicefile := dfS, settings := { repositories := some [("default", "https://one"), ("other", "https://two")] } }

/-- A job is launched, and its process reads the file. -/
def told : List DAct :=
  setup.map ofAct ++ [.jmStart dRepo] ++ List.replicate 20 .jmStep ++
    [.start ⟨1, "p"⟩ 100 (fun x => "/" ++ x) (.pure none) trivial]

/-- The file of the job. -/
def file1 : JobData where
  pipeline := ⟨"p", [("x", "d:(a,1)")]⟩
  payload := { plS "s" with outPath := some "/home" }
  repositories := [("default", "https://one")]
  id := 1
  path := "Jobs/1"

/-- The process of a launch, which has not read its file. -/
def isJob (o : Option Other) (l : Launch) (pid : Nat) : Bool :=
  match o with
  | some (.job l' pid' _ _) => decide (l' = l ∧ pid' = pid)
  | _ => false

/-- What the example has come to. -/
def result : Option DSys := dacts "Jobs" { w := {}, files := fun _ _ => none } told

theorem namesMatch_dRepo : ∀ d ∈ [dRepo], NamesMatch d.devicefile := by
  intro d hd
  rw [List.mem_singleton.mp hd]
  exact namesMatch_dfS

/-- The hypotheses of C134 are met: a launched job, its file, and its process. -/
example : ∃ s, DReachable "Jobs" s ∧ s.w.launches = [⟨1, "p"⟩] ∧ s.passes = [dRepo] ∧
    (∀ d ∈ s.passes, NamesMatch d.devicefile) ∧
    s.files "Jobs" 1 = some (some file1) ∧
    isJob s.others[5]? ⟨1, "p"⟩ 100 = true := by
  have h : result.isSome = true := by decide +kernel
  obtain ⟨s, hs⟩ := Option.isSome_iff_exists.mp h
  have hp : s.passes = [dRepo] := by
    have : result.map (·.passes) = some [dRepo] := by decide +kernel
    rw [hs] at this; exact Option.some.inj this
  refine ⟨s, dsteps_of_dacts hs, ?_, hp, by rw [hp]; exact namesMatch_dRepo, ?_, ?_⟩
  · have : result.map (·.w.launches) = some [⟨1, "p"⟩] := by decide +kernel
    rw [hs] at this; exact Option.some.inj this
  · have : result.map (fun s => s.files "Jobs" 1) = some (some (some file1)) := by decide +kernel
    rw [hs] at this; exact Option.some.inj this
  · have : result.map (fun s => isJob s.others[5]? ⟨1, "p"⟩ 100) = some true := by decide +kernel
    rw [hs] at this; exact Option.some.inj this

end Tomato.Props.Given
