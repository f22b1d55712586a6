import Verif.Props.Assign
import Verif.Props.Races
import Verif.CancelSafe

/-!
# C19: first come, first served
-/

namespace Tomato

/-! ## Specification -/

/-- The pipeline and job, if the operation assigns a job to a pipeline. -/
def assignOf : Op → Option (Nat × String)
  | .updatePip n ps => (ps.findSome? (fun p => match p with | .jobid v => v | _ => none)).map (·, n)
  | _ => none

/-- The assignments of jobs to pipelines made so far, oldest first. -/
def assigned (h : Past) : List (Nat × String) := h.filterMap (fun x => assignOf x.2)

/-- During all of the pass the job has been waiting, with this method and sample. -/
def Waiting (h : Past) (id : Nat) (method : List Task) (sample : String) : Prop :=
  ∀ x ∈ h, (∃ job ∈ x.1.jobs, job.id = id ∧ job.status.queued = true) ∧
    ∀ job ∈ x.1.jobs, job.id = id → job.payload.method = method ∧ job.payload.sample = sample

/-- During all of the pass, the driver of the component was on record with one port, at which it
answered to this command in this way. -/
def Answers (h : Past) (cmp : Component) (c : DrvCmd) (ok : DrvReply → Prop) : Prop :=
  ∃ port, ∀ x ∈ h, (∀ row ∈ x.1.drvs, row.name = cmp.driver → row.port = some port) ∧
    ∃ r, x.1.drv port c = some r ∧ ok r

/-- During all of the pass the pipeline of this name has been suitable for the method: it has the
roles, one of its components has the technique, and one with the right role accepts the task. -/
def Fits (d : Daemon) (h : Past) (method : List Task) (n : String) : Prop :=
  ∃ pl ∈ Dict.values d.devicefile.pipelines, pl.name = n ∧ ∀ t ∈ method,
    (∃ role c cmp, (role, c) ∈ pl.components ∧ Dict.get? d.devicefile.components c = some cmp ∧
      Answers h cmp (.capabilities cmp.address cmp.channel)
        (fun r => r.success = true ∧ ∃ caps, r.data = some caps ∧ t.technique ∈ caps)) ∧
    (∃ c cmp, (t.role, c) ∈ pl.components ∧ Dict.get? d.devicefile.components c = some cmp ∧
      Answers h cmp (.validate t cmp.address cmp.channel) (fun r => r.success = true))

/-- Free, ready and with the sample. -/
def Available (w : World) (n sample : String) : Prop :=
  (∃ p ∈ w.pips, p.name = n) ∧
    ∀ p ∈ w.pips, p.name = n → p.jobid = none ∧ p.ready = true ∧ p.sampleid = some sample

/-- At some moment, before the first assignment of this pass, the pipeline was not available. -/
def Unavailable (h : Past) (n sample : String) : Prop :=
  ∃ h₁ x h₂, h = h₁ ++ x :: h₂ ∧ assigned h₁ = [] ∧ ¬ Available x.1 n sample

/-- The job has not been passed over: if it has been waiting, then it has been served, or each
pipeline that has been suitable has been given to a job with a lower id or was not available. -/
def Served (d : Daemon) (h : Past) (id : Nat) : Prop :=
  ∀ n method sample, Waiting h id method sample → Fits d h method n →
    (∃ n', (id, n') ∈ assigned h) ∨ (∃ j, j < id ∧ (j, n) ∈ assigned h) ∨ Unavailable h n sample

/-! ## Monotonicity -/

theorem assigned_append (h h' : Past) : assigned (h ++ h') = assigned h ++ assigned h' := by
  simp [assigned]

theorem Waiting.prefix {h t : Past} {id : Nat} {m : List Task} {s : String} (hw : Waiting (h ++ t) id m s) :
    Waiting h id m s := fun x hx => hw x (List.mem_append_left _ hx)

theorem Answers.prefix {h t : Past} {cmp : Component} {c : DrvCmd} {ok : DrvReply → Prop}
    (ha : Answers (h ++ t) cmp c ok) : Answers h cmp c ok := by
  obtain ⟨port, hp⟩ := ha
  exact ⟨port, fun x hx => hp x (List.mem_append_left _ hx)⟩

theorem Fits.prefix {d : Daemon} {h t : Past} {m : List Task} {n : String} (hf : Fits d (h ++ t) m n) :
    Fits d h m n := by
  obtain ⟨pl, h1, h2, h3⟩ := hf
  refine ⟨pl, h1, h2, fun x hx => ?_⟩
  obtain ⟨⟨r, c, cmp, h4, h5, h6⟩, ⟨c', cmp', h7, h8, h9⟩⟩ := h3 x hx
  exact ⟨⟨r, c, cmp, h4, h5, h6.prefix⟩, ⟨c', cmp', h7, h8, h9.prefix⟩⟩

theorem Unavailable.append {h : Past} {n s : String} (hu : Unavailable h n s) (t : Past) :
    Unavailable (h ++ t) n s := by
  obtain ⟨h₁, x, h₂, rfl, h2, h3⟩ := hu
  exact ⟨h₁, x, h₂ ++ t, by simp, h2, h3⟩

theorem Served.append {d : Daemon} {h : Past} {id : Nat} (hs : Served d h id) (t : Past) :
    Served d (h ++ t) id := by
  intro n m s hw hf
  rcases hs n m s hw.prefix hf.prefix with ⟨n', h1⟩ | ⟨j, h1, h2⟩ | h1
  · exact .inl ⟨n', by rw [assigned_append]; exact List.mem_append_left _ h1⟩
  · exact .inr (.inl ⟨j, h1, by rw [assigned_append]; exact List.mem_append_left _ h2⟩)
  · exact .inr (.inr (h1.append t))

/-- What is required of an assignment: ids increase, and no lower id is passed over. -/
def OrdA (d : Daemon) (h : Past) (o : Op) : Prop :=
  ∀ j n, assignOf o = some (j, n) → (∀ q ∈ assigned h, q.1 < j) ∧ (∀ id, id < j → Served d h id)

/-! ## The parts of the pass -/

variable {d : Daemon}

theorem assignOf_none {o : Op} (ho : ∀ n ps, o ≠ .updatePip n ps) : assignOf o = none := by
  cases o <;> first | rfl | exact absurd rfl (ho _ _)

theorem ordA_of_ne {o : Op} (ho : ∀ n ps, o ≠ .updatePip n ps) (h : Past) : OrdA d h o := by
  intro j n h1
  rw [assignOf_none ho] at h1
  cases h1

/-- The history has grown, without assignments. -/
def Grown (h h' : Past) : Prop := ∃ t, h' = h ++ t ∧ assigned t = []

theorem Grown.refl (h : Past) : Grown h h := ⟨[], by simp, rfl⟩

theorem Grown.trans {h h' h'' : Past} (h1 : Grown h h') (h2 : Grown h' h'') : Grown h h'' := by
  obtain ⟨t, rfl, ht⟩ := h1
  obtain ⟨t', rfl, ht'⟩ := h2
  exact ⟨t ++ t', by simp, by rw [assigned_append, ht, ht']; rfl⟩

theorem Grown.step (h : Past) {w : World} {o : Op} (ho : assignOf o = none) : Grown h (h ++ [(w, o)]) :=
  ⟨_, rfl, by simp [assigned, ho]⟩

theorem hsafe_calm {α : Type} {p : Prog DB α}
    (hp : Prog.Only (S := DB) (fun o => ∀ n ps, o ≠ .updatePip n ps) p) (h : Past) :
    HSafe (OrdA d) (fun _ h' => Grown h h') p h := by
  induction p generalizing h with
  | pure a => exact .refl h
  | raise e => trivial
  | op o k ih =>
    refine ⟨ordA_of_ne hp.1 h, fun w => hsafe_mono (ih _ (hp.2 _) _) ?_⟩
    intro a h' hg
    exact (Grown.step h (assignOf_none hp.1)).trans hg

/-- No restriction on the operations. -/
def AnyA (_ : Past) (_ : Op) : Prop := True

theorem hsafe_calm_post {α : Type} {p : Prog DB α} {Q : α → Past → Prop}
    (hp : Prog.Only (S := DB) (fun o => ∀ n ps, o ≠ .updatePip n ps) p) (h : Past)
    (hq : HSafe AnyA Q p h) :
    HSafe (OrdA d) (fun a h' => Grown h h' ∧ Q a h') p h := by
  induction p generalizing h with
  | pure a => exact ⟨.refl h, hq⟩
  | raise e => trivial
  | op o k ih =>
    refine ⟨ordA_of_ne hp.1 h, fun w => hsafe_mono (ih _ (hp.2 _) _ (hq.2 w)) ?_⟩
    rintro a h' ⟨hg, hh⟩
    exact ⟨(Grown.step h (assignOf_none hp.1)).trans hg, hh⟩

theorem Grown.le {h h' : Past} (hg : Grown h h') : ∃ t, h' = h ++ t := by
  obtain ⟨t, ht, -⟩ := hg; exact ⟨t, ht⟩

/-- Asking a driver that answers throughout. -/
theorem hsafe_asked {β : Type} {cmp : Component} {Q : β → Past → Prop} (h : Past)
    (f : Option DrvState → P β)
    (hsome : ∀ row w, (∃ r ∈ w.drvs, r.name = cmp.driver ∧ r.port = row.port) →
      HSafe AnyA Q (f (some row)) (h ++ [(w, .getDrv cmp.driver)]))
    (hnone : ∃ e, f none = .raise e) :
    HSafe AnyA Q (Prog.bind (Do.getDrv cmp.driver) f) h := by
  refine hsafe_bind (Q := fun r h' => ∀ row, r = some row → ∃ w, h' = h ++ [(w, .getDrv cmp.driver)] ∧
    ∃ r ∈ w.drvs, r.name = cmp.driver ∧ r.port = row.port) ?_ ?_
  · refine hsafe_call trivial ?_
    intro w a ha
    simp only [exec, Except.ok.injEq] at ha
    subst ha
    intro row hr
    obtain ⟨h1, h2⟩ := drv?_some hr
    exact ⟨w, rfl, row, h2, h1, rfl⟩
  · intro r h' hr
    cases r with
    | none =>
      obtain ⟨e, he⟩ := hnone
      rw [he]
      trivial
    | some row =>
      obtain ⟨w, rfl, h2⟩ := hr row rfl
      exact hsome row w h2

theorem hsafe_validateTask_all (task : Task) (cs : Dict String String) (h : Past) :
    HSafe AnyA (fun b h' => (∃ c cmp, (task.role, c) ∈ cs ∧
        Dict.get? d.devicefile.components c = some cmp ∧
        Answers h' cmp (.validate task cmp.address cmp.channel) (fun r => r.success = true)) → b = true)
      (validateTask d task cs) h := by
  induction cs generalizing h with
  | nil => rintro ⟨c, cmp, hc, -⟩; cases hc
  | cons kv rest ih =>
    obtain ⟨crole, cname⟩ := kv
    unfold validateTask
    split
    · next hrole =>
      split
      · trivial
      · next cmp hcmp =>
        refine hsafe_asked (cmp := cmp) h _ (fun row w hrow => ?_) ⟨_, rfl⟩
        obtain ⟨port', hport⟩ : ∃ port', port' = row.port := ⟨_, rfl⟩
        refine hsafe_bind (Q := fun r h'' => (∃ t, h'' = h ++ t) ∧
            (Answers h'' cmp (.validate task cmp.address cmp.channel) (fun r => r.success = true) →
              r.success = true)) ?_ ?_
        · refine hsafe_call trivial ?_
          intro w' a ha
          refine ⟨⟨_, by rw [List.append_assoc]⟩, ?_⟩
          rintro ⟨port, hp⟩
          obtain ⟨r, hr, hrn, hrp⟩ := hrow
          have hp1 := (hp (w, .getDrv cmp.driver) (by simp)).1 r hr hrn
          rw [hp1] at hrp
          rw [← hrp] at ha hp
          obtain ⟨r', hr', hs'⟩ := (hp _ (List.mem_append_right _ (List.mem_singleton.mpr rfl))).2
          simp only [exec, Except.ok.injEq] at ha
          simp only at hr'
          rw [hr'] at ha
          subst ha
          exact hs'
        · rintro r h'' ⟨⟨t, rfl⟩, hr⟩
          split
          · exact fun _ => rfl
          · next hs =>
            refine hsafe_mono (hsafe_grow (ih (h ++ t))) ?_
            rintro b h3 ⟨hb, t', rfl⟩ ⟨c, cmp', hc, hc2, hc3⟩
            rcases List.mem_cons.mp hc with hc | hc
            · cases hc
              rw [hcmp] at hc2
              cases hc2
              exact absurd (hr hc3.prefix) hs
            · exact hb ⟨c, cmp', hc, hc2, hc3⟩
    · next hrole =>
      refine hsafe_mono (ih h) ?_
      rintro b h3 hb ⟨c, cmp', hc, hc2, hc3⟩
      rcases List.mem_cons.mp hc with hc | hc
      · cases hc; exact absurd rfl hrole
      · exact hb ⟨c, cmp', hc, hc2, hc3⟩

theorem hsafe_methodValidate_all (pip : Pipeline) (ts : List Task) (h : Past) :
    HSafe AnyA (fun b h' => (∀ t ∈ ts, ∃ c cmp, (t.role, c) ∈ pip.components ∧
        Dict.get? d.devicefile.components c = some cmp ∧
        Answers h' cmp (.validate t cmp.address cmp.channel) (fun r => r.success = true)) → b = true)
      (methodValidate d pip ts) h := by
  induction ts generalizing h with
  | nil => exact fun _ => rfl
  | cons t ts ih =>
    unfold methodValidate
    refine hsafe_bind (hsafe_validateTask_all t pip.components h) ?_
    intro b h' hb
    split
    · refine hsafe_mono (ih h') ?_
      intro b' h'' hb' hall
      exact hb' (fun x hx => hall x (List.mem_cons_of_mem _ hx))
    · next hbt => exact fun hall => absurd (hb (hall t (by simp))) hbt

theorem hsafe_collectCapabs_all (cs : List String) (caps : List String) (h : Past) :
    HSafe AnyA (fun caps' h' => ∀ t, (t ∈ caps ∨ ∃ c ∈ cs, ∃ cmp, Dict.get? d.devicefile.components c = some cmp ∧
        Answers h' cmp (.capabilities cmp.address cmp.channel)
          (fun r => r.success = true ∧ ∃ l, r.data = some l ∧ t ∈ l)) → t ∈ caps')
      (collectCapabs d cs caps) h := by
  induction cs generalizing caps h with
  | nil =>
    rintro t (h1 | ⟨c, hc, -⟩)
    · exact h1
    · cases hc
  | cons cname rest ih =>
    unfold collectCapabs
    split
    · trivial
    · next cmp hcmp =>
      refine hsafe_asked (cmp := cmp) h _ (fun row w hrow => ?_) ⟨_, rfl⟩
      refine hsafe_bind (Q := fun r h'' => (∃ t, h'' = h ++ t) ∧
          ∀ t, (Answers h'' cmp (.capabilities cmp.address cmp.channel)
            (fun r => r.success = true ∧ ∃ l, r.data = some l ∧ t ∈ l)) →
            r.success = true ∧ ∃ l, r.data = some l ∧ t ∈ l) ?_ ?_
      · refine hsafe_call trivial ?_
        intro w' a ha
        refine ⟨⟨_, by rw [List.append_assoc]⟩, ?_⟩
        rintro t ⟨port, hp⟩
        obtain ⟨r, hr, hrn, hrp⟩ := hrow
        have hp1 := (hp (w, .getDrv cmp.driver) (by simp)).1 r hr hrn
        rw [hp1] at hrp
        rw [← hrp] at ha hp
        obtain ⟨r', hr', hs'⟩ := (hp _ (List.mem_append_right _ (List.mem_singleton.mpr rfl))).2
        simp only at hr'
        simp only [exec, hr', Except.ok.injEq] at ha
        subst ha
        exact hs'
      · rintro r h'' ⟨⟨t, rfl⟩, hr⟩
        split
        · next l hs hl =>
          refine hsafe_mono (hsafe_grow (ih _ (h ++ t))) ?_
          rintro caps' h3 ⟨hb, t', rfl⟩ x hx
          refine hb x ?_
          rcases hx with hx | ⟨c, hc, cmp', hc2, hc3⟩
          · exact .inl (List.mem_append_left _ hx)
          · rcases List.mem_cons.mp hc with rfl | hc
            · rw [hcmp] at hc2
              cases hc2
              obtain ⟨-, l', hl', hx'⟩ := hr x hc3.prefix
              rw [hl] at hl'
              cases hl'
              exact .inl (List.mem_append_right _ hx')
            · exact .inr ⟨c, hc, cmp', hc2, hc3⟩
        · next hno =>
          refine hsafe_mono (hsafe_grow (ih _ (h ++ t))) ?_
          rintro caps' h3 ⟨hb, t', rfl⟩ x hx
          refine hb x ?_
          rcases hx with hx | ⟨c, hc, cmp', hc2, hc3⟩
          · exact .inl hx
          · rcases List.mem_cons.mp hc with rfl | hc
            · rw [hcmp] at hc2
              cases hc2
              obtain ⟨h1, l', hl', hx'⟩ := hr x hc3.prefix
              exact absurd hl' (fun h => hno l' h1 h)
            · exact .inr ⟨c, hc, cmp', hc2, hc3⟩

theorem hsafe_matchLoop_all (method : List Task) (ps : List Pipeline) (cands : List String) (h : Past) :
    HSafe AnyA (fun l h' => (∀ n ∈ cands, n ∈ l) ∧ ∀ pl ∈ ps, (∀ t ∈ method,
        (∃ role c cmp, (role, c) ∈ pl.components ∧ Dict.get? d.devicefile.components c = some cmp ∧
          Answers h' cmp (.capabilities cmp.address cmp.channel)
            (fun r => r.success = true ∧ ∃ caps, r.data = some caps ∧ t.technique ∈ caps)) ∧
        (∃ c cmp, (t.role, c) ∈ pl.components ∧ Dict.get? d.devicefile.components c = some cmp ∧
          Answers h' cmp (.validate t cmp.address cmp.channel) (fun r => r.success = true))) →
        pl.name ∈ l)
      (matchLoop d method ps cands) h := by
  induction ps generalizing cands h with
  | nil => exact ⟨fun _ h => h, fun pl hp => by cases hp⟩
  | cons pip rest ih =>
    unfold matchLoop
    split
    · next hroles =>
      refine hsafe_bind (hsafe_grow (hsafe_collectCapabs_all (d := d) (Dict.values pip.components) [] h)) ?_
      rintro capabs h' ⟨hcaps, t1, rfl⟩
      split
      · next htech =>
        refine hsafe_bind (hsafe_grow (hsafe_methodValidate_all (d := d) pip method (h ++ t1))) ?_
        rintro b h'' ⟨hb, t2, rfl⟩
        split
        · next hbt =>
          refine hsafe_mono (ih _ _) ?_
          rintro l h3 ⟨h4, h5⟩
          refine ⟨fun n hn => h4 n (List.mem_append_left _ hn), fun pl hpl => ?_⟩
          rcases List.mem_cons.mp hpl with rfl | hpl
          · exact fun _ => h4 _ (List.mem_append_right _ (by simp))
          · exact h5 pl hpl
        · next hbt =>
          refine hsafe_mono (hsafe_grow (ih _ _)) ?_
          rintro l h3 ⟨⟨h4, h5⟩, t3, rfl⟩
          refine ⟨h4, fun pl hpl => ?_⟩
          rcases List.mem_cons.mp hpl with rfl | hpl
          · intro hall
            refine absurd (hb ?_) hbt
            intro t ht
            obtain ⟨-, c, cmp, h6, h7, h8⟩ := hall t ht
            exact ⟨c, cmp, h6, h7, h8.prefix⟩
          · exact h5 pl hpl
      · next htech =>
        refine hsafe_mono (hsafe_grow (ih _ _)) ?_
        rintro l h3 ⟨⟨h4, h5⟩, t3, rfl⟩
        refine ⟨h4, fun pl hpl => ?_⟩
        rcases List.mem_cons.mp hpl with rfl | hpl
        · intro hall
          refine absurd ?_ htech
          rw [List.all_eq_true]
          intro x hx
          obtain ⟨t, ht, rfl⟩ := List.mem_map.mp hx
          rw [List.contains_iff_mem]
          obtain ⟨⟨role, c, cmp, h6, h7, h8⟩, -⟩ := hall t ht
          exact hcaps _ (.inr ⟨c, List.mem_map.mpr ⟨_, h6, rfl⟩, cmp, h7, h8.prefix⟩)
        · exact h5 pl hpl
    · next hroles =>
      refine hsafe_mono (ih _ _) ?_
      rintro l h3 ⟨h4, h5⟩
      refine ⟨h4, fun pl hpl => ?_⟩
      rcases List.mem_cons.mp hpl with rfl | hpl
      · intro hall
        refine absurd ?_ hroles
        rw [List.all_eq_true]
        intro x hx
        obtain ⟨t, ht, rfl⟩ := List.mem_map.mp hx
        rw [List.contains_iff_mem]
        obtain ⟨-, c, cmp, h6, -, -⟩ := hall t ht
        exact List.mem_map.mpr ⟨_, h6, rfl⟩
      · exact h5 pl hpl

theorem hsafe_findMatching_all (method : List Task) (h : Past) :
    HSafe AnyA (fun l h' => ∀ n, Fits d h' method n → n ∈ l) (findMatching d method) h := by
  refine hsafe_mono (hsafe_matchLoop_all method _ [] h) ?_
  rintro l h' ⟨-, h2⟩ n ⟨pl, hpl, rfl, hall⟩
  exact h2 pl hpl hall

/-- What the result of `check_queued` contains. -/
def MatchedAll (d : Daemon) (m : Dict Nat (List String)) (h : Past) : Prop :=
  ∀ id ms, Dict.get? m id = some ms → ∀ n method sample, Waiting h id method sample →
    Fits d h method n → n ∈ ms

theorem MatchedAll.append {m : Dict Nat (List String)} {h : Past} (hm : MatchedAll d m h) (t : Past) :
    MatchedAll d m (h ++ t) :=
  fun id ms hi n me sa hw hf => hm id ms hi n me sa hw.prefix hf.prefix

theorem hsafe_checkLoop_all (jobs : List Job) (m : Dict Nat (List String)) (h : Past)
    (hj : ∀ j ∈ jobs, WasJob h j) (hm : MatchedAll d m h) (hn : (Dict.keys m).Nodup) :
    HSafe AnyA (fun m' h' => MatchedAll d m' h' ∧ (Dict.keys m').Nodup ∧
        (∀ id, (id ∈ Dict.keys m ∨ ∃ j ∈ jobs, j.id = id) → id ∈ Dict.keys m'))
      (checkLoop d jobs m) h := by
  induction jobs generalizing m h with
  | nil =>
    refine ⟨hm, hn, ?_⟩
    rintro id (h1 | ⟨j, hj, -⟩)
    · exact h1
    · cases hj
  | cons job rest ih =>
    unfold checkLoop
    refine hsafe_bind (hsafe_grow (hsafe_findMatching_all (d := d) job.payload.method h)) ?_
    rintro ms h' ⟨hms, t1, rfl⟩
    have hset : MatchedAll d (Dict.set m job.id ms) (h ++ t1) := by
      intro id ms' hget n method sample hw hf
      rw [Dict.get?_set] at hget
      split at hget
      · next hid =>
        cases hget
        obtain ⟨x, hx, hxj⟩ := hj job (by simp)
        have := (hw x (List.mem_append_left _ hx)).2 job hxj hid
        exact hms n (by rw [this.1]; exact hf)
      · exact (hm.append t1) id ms' hget n method sample hw hf
    have hnod := Dict.nodup_keys_set hn job.id ms
    have hkeys : ∀ id, (id ∈ Dict.keys m ∨ ∃ j ∈ job :: rest, j.id = id) →
        (id ∈ Dict.keys (Dict.set m job.id ms) ∨ ∃ j ∈ rest, j.id = id) := by
      rintro id (h1 | ⟨j, hj, rfl⟩)
      · refine .inl ?_
        rw [Dict.mem_keys_iff] at h1 ⊢
        rw [Dict.get?_set]
        split
        · rfl
        · exact h1
      · rcases List.mem_cons.mp hj with rfl | hj
        · refine .inl ?_
          rw [Dict.mem_keys_iff, Dict.get?_set_self]
          rfl
        · exact .inr ⟨j, hj, rfl⟩
    have hrest : ∀ t, ∀ j ∈ rest, WasJob (h ++ t1 ++ t) j := fun t j hjm =>
      ((hj j (List.mem_cons_of_mem _ hjm)).append t1).append t
    split
    · refine hsafe_bind (hsafe_of_only (P := fun _ => True) (fun _ _ _ => trivial)
        (only_updateJobId (fun _ _ => trivial) _ _ trivial) _) ?_
      rintro _ h'' ⟨t2, rfl⟩
      refine hsafe_mono (ih _ _ (hrest t2) (hset.append t2) hnod) ?_
      rintro m' h' ⟨h1, h2, h3⟩
      exact ⟨h1, h2, fun id hid => h3 id (hkeys id hid)⟩
    · refine hsafe_mono (ih _ _ (by simpa using hrest []) hset hnod) ?_
      rintro m' h' ⟨h1, h2, h3⟩
      exact ⟨h1, h2, fun id hid => h3 id (hkeys id hid)⟩

theorem hsafe_checkQueued_all (h : Past) :
    HSafe AnyA (fun m h' => MatchedAll d m h' ∧ (Dict.keys m).Nodup ∧
        ∀ id method sample, Waiting h' id method sample → id ∈ Dict.keys m) (checkQueued d) h := by
  unfold checkQueued
  refine hsafe_bind (Q := fun l h' => ∃ w o, h' = h ++ [(w, o)] ∧ (∀ j ∈ l, j ∈ w.jobs) ∧
    ∀ j ∈ w.jobs, j.status.queued = true → j ∈ l) ?_ ?_
  · refine hsafe_call trivial ?_
    intro w a ha
    simp only [exec, Except.ok.injEq] at ha
    subst ha
    refine ⟨w, _, rfl, fun j hj => (List.mem_filter.mp hj).1, fun j hj hq => List.mem_filter.mpr ⟨hj, hq⟩⟩
  · rintro l h' ⟨w, o, rfl, h1, h2⟩
    refine hsafe_mono (hsafe_grow (hsafe_checkLoop_all (d := d) l [] _ (fun j hj => ⟨(w, o), by simp, h1 j hj⟩)
      (by intro id ms hg; cases hg) (by simp [Dict.keys]))) ?_
    rintro m h' ⟨⟨h3, h4, h5⟩, t, rfl⟩
    refine ⟨h3, h4, ?_⟩
    intro id method sample hw
    obtain ⟨⟨job, hj, rfl, hq⟩, -⟩ := hw (w, o) (by simp)
    exact h5 _ (.inr ⟨job, h2 job hj hq, rfl⟩)

/-! ## The assignments -/

/-- Trying the matched pipelines: nothing is suitable and available, or one is taken. -/
theorem hsafe_assignJob_ord (job : Job) (ns : List String) (avail : Dict String PipState) (h : Past)
    (hlt : ∀ q ∈ assigned h, q.1 < job.id) (hserved : ∀ id, id < job.id → Served d h id) :
    HSafe (OrdA d) (fun a h' => ∃ t, h' = h ++ t ∧
        ((assigned t = [] ∧ a = avail ∧ ∀ n ∈ ns, ∀ ps, Dict.get? avail n = some ps →
          ¬ (ps.ready = true ∧ ps.sampleid = some job.payload.sample)) ∨
        ∃ n, assigned t = [(job.id, n)] ∧ a = Dict.erase avail n))
      (assignJob d job.id job ns avail) h := by
  induction ns with
  | nil => exact ⟨[], by simp, .inl ⟨rfl, rfl, by simp⟩⟩
  | cons n ns ih =>
    unfold assignJob
    split
    · next hnone =>
      refine hsafe_mono ih ?_
      rintro a h' ⟨t, rfl, h1 | h1⟩
      · refine ⟨t, rfl, .inl ⟨h1.1, h1.2.1, fun m hm ps hps => ?_⟩⟩
        rcases List.mem_cons.mp hm with rfl | hm
        · rw [hnone] at hps; cases hps
        · exact h1.2.2 m hm ps hps
      · exact ⟨t, rfl, .inr h1⟩
    · next ps hps =>
      split
      · next hbad =>
        refine hsafe_mono ih ?_
        rintro a h' ⟨t, rfl, h1 | h1⟩
        · refine ⟨t, rfl, .inl ⟨h1.1, h1.2.1, fun m hm ps' hps' => ?_⟩⟩
          rcases List.mem_cons.mp hm with rfl | hm
          · rw [hps] at hps'
            cases hps'
            rintro ⟨h2, h3⟩
            rcases hbad with hb | hb
            · rw [h2] at hb; cases hb
            · exact hb h3
          · exact h1.2.2 m hm ps' hps'
        · exact ⟨t, rfl, .inr h1⟩
      · refine hsafe_bind (hsafe_calm (p := Do.makeJobDir d.settings.storage job.id)
          ((Do.only_makeJobDir _ _).mpr (by simp)) h) ?_
        rintro _ h' ⟨t1, rfl, ht1⟩
        split
        · trivial
        · refine hsafe_bind (Q := fun _ h' => ∃ t, h' = h ++ t1 ++ t ∧ assigned t = [(job.id, n)]) ?_ ?_
          · unfold updatePip
            refine hsafe_bind (Q := fun _ h' => ∃ t, h' = h ++ t1 ++ t ∧ assigned t = [(job.id, n)]) ?_ ?_
            · refine hsafe_call ?_ (fun w a _ => ⟨_, rfl, rfl⟩)
              intro j n' heq
              simp only [assignOf, List.findSome?, Option.map_some, Option.some.injEq, Prod.mk.injEq] at heq
              obtain ⟨rfl, rfl⟩ := heq
              refine ⟨fun q hq => ?_, fun id hid => (hserved id hid).append t1⟩
              rw [assigned_append, ht1, List.append_nil] at hq
              exact hlt q hq
            · rintro _ h' ⟨t2, rfl, ht2⟩
              refine hsafe_mono (hsafe_calm (p := Do.getPip n) ((Do.only_getPip _).mpr (by simp)) _) ?_
              rintro _ _ ⟨t3, rfl, ht3⟩
              exact ⟨t2 ++ t3, by simp, by rw [assigned_append, ht2, ht3]; rfl⟩
          · rintro _ h' ⟨t2, rfl, ht2⟩
            have hlast : Prog.Only (S := DB) (fun o => ∀ n ps, o ≠ .updatePip n ps)
                (Prog.bind (Do.popenJob job.id n) (fun _ => Prog.bind Do.now (fun now =>
                  updateJobId job.id [.launchedAt (some now)]))) := by
              refine Prog.only_bind ((Do.only_popenJob _ _).mpr (by simp)) (fun _ => ?_)
              refine Prog.only_bind (Do.only_now.mpr (by simp)) (fun t => ?_)
              exact only_updateJobId quiet_noUpdate _ _ (by simp)
            have hsafe := hsafe_bind (hsafe_calm (d := d) hlast (h ++ t1 ++ t2))
              (f := fun _ => Prog.pure (S := DB) (Dict.erase avail n))
              (Q' := fun a h' => ∃ t, h' = h ++ t ∧
                ((assigned t = [] ∧ a = avail ∧ ∀ m ∈ n :: ns, ∀ ps, Dict.get? avail m = some ps →
                  ¬ (ps.ready = true ∧ ps.sampleid = some job.payload.sample)) ∨
                ∃ n, assigned t = [(job.id, n)] ∧ a = Dict.erase avail n)) (by
                rintro _ _ ⟨t3, rfl, ht3⟩
                refine ⟨t1 ++ t2 ++ t3, by simp, .inr ⟨n, ?_, rfl⟩⟩
                simp [assigned_append, ht1, ht2, ht3])
            simp only [Prog.bind_assoc] at hsafe
            exact hsafe

theorem hsafe_getJobId_ord (id : Nat) (h : Past) :
    HSafe (OrdA d) (fun job h' => Grown h h' ∧ job.id = id ∧ WasJob h' job) (getJobId id) h := by
  refine hsafe_mono (hsafe_calm_post (only_getJobId quiet_noUpdate id) h (Q := fun job h' =>
    job.id = id ∧ WasJob h' job) ?_) (fun _ _ h => h)
  unfold getJobId
  refine hsafe_bind (Q := fun r h' => ∀ job, r = some job → job.id = id ∧ WasJob h' job) ?_ ?_
  · refine hsafe_call trivial ?_
    intro w a ha
    simp only [exec, Except.ok.injEq] at ha
    subst ha
    intro job hj
    obtain ⟨h1, h2⟩ := job?_some hj
    exact ⟨h1, _, List.mem_append_right _ (List.mem_singleton.mpr rfl), h2⟩
  · intro r h' h2
    split
    · exact h2 _ rfl
    · trivial

/-- The state of the loop of `action_queued`. -/
structure LoopInv (d : Daemon) (matched : Dict Nat (List String)) (w₀ : World) (rest : List Nat)
    (avail : Dict String PipState) (h : Past) : Prop where
  /-- assignments so far have lower ids than the jobs to come -/
  lower : ∀ q ∈ assigned h, ∀ id ∈ rest, q.1 < id
  /-- all other jobs have been dealt with -/
  served : ∀ id, id ∉ rest → Served d h id
  /-- the available pipelines: free at the beginning and not assigned since -/
  left : ∀ n p, p ∈ w₀.pips → p.name = n → p.jobid = none → (∀ j, (j, n) ∉ assigned h) →
    ∃ ps ∈ w₀.pips, ps.name = n ∧ Dict.get? avail n = some ps
  /-- the table was read before any assignment -/
  read : ∃ h₁ o h₂, h = h₁ ++ (w₀, o) :: h₂ ∧ assigned h₁ = []
  /-- the candidates -/
  all : MatchedAll d matched h

theorem hsafe_actionLoop_ord (matched : Dict Nat (List String)) (w₀ : World) (ids : List Nat)
    (hsort : ids.Pairwise (· < ·)) (avail : Dict String PipState) (h : Past)
    (hinv : LoopInv d matched w₀ ids avail h) :
    HSafe (OrdA d) (fun _ h' => ∀ id, Served d h' id) (actionLoop d matched ids avail) h := by
  induction ids generalizing avail h with
  | nil => exact fun id => hinv.served id (by simp)
  | cons id ids ih =>
    rw [List.pairwise_cons] at hsort
    unfold actionLoop
    refine hsafe_bind (hsafe_getJobId_ord id h) ?_
    rintro job h' ⟨⟨t1, rfl, ht1⟩, rfl, hw⟩
    split
    · trivial
    · next pnames hp =>
      refine hsafe_bind (hsafe_assignJob_ord job pnames avail _ ?_ ?_) ?_
      · intro q hq
        rw [assigned_append, ht1, List.append_nil] at hq
        exact hinv.lower q hq _ (by simp)
      · intro i hi
        refine (hinv.served i ?_).append t1
        intro hm
        rcases List.mem_cons.mp hm with rfl | hm
        · omega
        · have := hsort.1 i hm; omega
      · rintro avail' h' ⟨t2, rfl, ht2⟩
        have hass : assigned (h ++ t1 ++ t2) = assigned h ++ assigned t2 := by
          rw [assigned_append, assigned_append, ht1, List.append_nil]
        have hread : ∃ h₁ o h₂, h ++ t1 ++ t2 = h₁ ++ (w₀, o) :: h₂ ∧ assigned h₁ = [] := by
          obtain ⟨h₁, o, h₂, rfl, h3⟩ := hinv.read
          exact ⟨h₁, o, h₂ ++ t1 ++ t2, by simp, h3⟩
        have hserved : ∀ i, i ∉ job.id :: ids → Served d (h ++ t1 ++ t2) i :=
          fun i hi => ((hinv.served i hi).append t1).append t2
        refine ih hsort.2 avail' _ ⟨?_, ?_, ?_, hread, (hinv.all.append t1).append t2⟩
        · intro q hq i hi
          rw [hass] at hq
          rcases List.mem_append.mp hq with hq | hq
          · exact hinv.lower q hq i (List.mem_cons_of_mem _ hi)
          · rcases ht2 with ⟨h2, -⟩ | ⟨n, h2, -⟩
            · rw [h2] at hq; cases hq
            · rw [h2, List.mem_singleton] at hq
              subst hq
              exact hsort.1 i hi
        · intro i hi
          by_cases hij : i = job.id
          · subst hij
            rcases ht2 with ⟨h2, -, h4⟩ | ⟨n, h2, -⟩
            · -- no pipeline found
              intro n method sample hwt hfit
              have hn : n ∈ pnames := hinv.all _ _ hp n method sample hwt.prefix.prefix hfit.prefix.prefix
              have hsample : job.payload.sample = sample := by
                obtain ⟨x, hx, hxj⟩ := hw
                exact ((hwt x (List.mem_append_left _ hx)).2 job hxj rfl).2
              by_cases hav : Available w₀ n sample
              · obtain ⟨⟨p, hp1, hp2⟩, hav2⟩ := hav
                by_cases hta : ∃ j, (j, n) ∈ assigned h
                · obtain ⟨j, hj⟩ := hta
                  refine .inr (.inl ⟨j, hinv.lower _ hj _ (by simp), ?_⟩)
                  rw [hass]
                  exact List.mem_append_left _ hj
                · obtain ⟨ps, h5, h6, h7⟩ := hinv.left n p hp1 hp2 (hav2 p hp1 hp2).1
                    (fun j hj => hta ⟨j, hj⟩)
                  have := hav2 ps h5 h6
                  exact absurd ⟨this.2.1, by rw [hsample]; exact this.2.2⟩ (h4 n hn ps h7)
              · obtain ⟨h₁, o, h₂, h5, h6⟩ := hread
                exact .inr (.inr ⟨h₁, (w₀, o), h₂, h5, h6, hav⟩)
            · intro m method sample _ _
              refine .inl ⟨n, ?_⟩
              rw [hass, h2]
              simp
          · exact hserved i (by simp [hij, hi])
        · intro n p hp1 hp2 hp3 hno
          rw [hass] at hno
          obtain ⟨ps, h5, h6, h7⟩ := hinv.left n p hp1 hp2 hp3
            (fun j hj => hno j (List.mem_append_left _ hj))
          refine ⟨ps, h5, h6, ?_⟩
          rcases ht2 with ⟨-, rfl, -⟩ | ⟨m, h2, rfl⟩
          · exact h7
          · rw [Dict.get?_erase, if_neg ?_]
            · exact h7
            · rintro rfl
              exact hno job.id (by rw [h2]; simp)

theorem insertId_sorted (a : Nat) (l : List Nat) (hl : l.Pairwise (· < ·)) (ha : a ∉ l) :
    (insertId a l).Pairwise (· < ·) := by
  induction l with
  | nil => simp [insertId]
  | cons b bs ih =>
    rw [List.pairwise_cons] at hl
    simp only [List.mem_cons, not_or] at ha
    simp only [insertId]
    split
    · next hab =>
      rw [List.pairwise_cons]
      refine ⟨?_, List.pairwise_cons.mpr hl⟩
      intro x hx
      rcases List.mem_cons.mp hx with rfl | hx
      · omega
      · have := hl.1 x hx; omega
    · next hab =>
      rw [List.pairwise_cons]
      refine ⟨?_, ih hl.2 ha.2⟩
      intro x hx
      rw [mem_insertId] at hx
      rcases hx with rfl | hx
      · omega
      · exact hl.1 x hx

theorem sortIds_sorted (l : List Nat) (hl : l.Nodup) : (sortIds l).Pairwise (· < ·) := by
  induction l with
  | nil => exact List.Pairwise.nil
  | cons a as ih =>
    rw [List.nodup_cons] at hl
    refine insertId_sorted a _ (ih hl.2) ?_
    rw [mem_sortIds]
    exact hl.1

theorem get?_foldl_set {V : Type} (l : List (String × V)) (acc : Dict String V) (n : String)
    (hn : (Dict.get? acc n).isSome ∨ ∃ v, (n, v) ∈ l) :
    (Dict.get? (l.foldl (fun d kv => Dict.set d kv.1 kv.2) acc) n).isSome := by
  induction l generalizing acc with
  | nil => 
    rcases hn with h | ⟨v, h⟩
    · exact h
    · cases h
  | cons a l ih =>
    refine ih _ ?_
    rw [Dict.get?_set]
    rcases hn with h | ⟨v, h⟩
    · refine .inl ?_
      split
      · rfl
      · exact h
    · rcases List.mem_cons.mp h with rfl | h
      · exact .inl (by simp)
      · exact .inr ⟨v, h⟩

theorem hsafe_schedule_ord (d : Daemon) (h0 : Past) (hno0 : assigned h0 = []) :
    HSafe (OrdA d) (fun _ h => ∀ id, Served d h id) (Prog.bind (checkQueued d) (actionQueued d)) h0 := by
  refine hsafe_bind (hsafe_calm_post (only_checkQueued quiet_noUpdate (by simp) d) _
    (hsafe_checkQueued_all (d := d) _)) ?_
  rintro m h ⟨⟨t, hg1, ht⟩, hall, hnod, hkeys⟩
  have hno : assigned h = [] := by
    rw [hg1, assigned_append, hno0, ht]; rfl
  unfold actionQueued
  refine hsafe_bind (Q := fun free h' => ∃ w o, h' = h ++ [(w, o)] ∧ assignOf o = none ∧
    (∀ p ∈ free, p ∈ w.pips) ∧ ∀ p ∈ w.pips, p.jobid = none → p ∈ free) ?_ ?_
  · refine hsafe_call (ordA_of_ne (by simp) _) ?_
    intro w a ha
    simp only [exec, Except.ok.injEq] at ha
    subst ha
    refine ⟨w, .pipsWhere (fun p => p.jobid.isNone), rfl, rfl, fun p hp => (List.mem_filter.mp hp).1,
      fun p hp hj => List.mem_filter.mpr ⟨hp, by rw [hj]; rfl⟩⟩
  · rintro free h' ⟨w, o, rfl, ho, hf1, hf2⟩
    have hno' : assigned (h ++ [(w, o)]) = [] := by
      rw [assigned_append, hno]; simp [assigned, ho]
    refine hsafe_actionLoop_ord m w _ (sortIds_sorted _ hnod) _ _ ⟨?_, ?_, ?_, ?_, hall.append _⟩
    · intro q hq
      rw [hno'] at hq
      cases hq
    · intro id hid n method sample hw
      rw [mem_sortIds] at hid
      exact absurd (hkeys id method sample hw.prefix) hid
    · intro n p hp hpn hpj _
      have hsome := get?_foldl_set (free.map (fun p => (p.name, p))) [] n
        (.inr ⟨p, List.mem_map.mpr ⟨p, hf2 p hp hpj, by rw [hpn]⟩⟩)
      obtain ⟨ps, hps⟩ := Option.isSome_iff_exists.mp hsome
      have := dict_ofList_mem _ _ _ hps
      obtain ⟨q, hq, heq⟩ := List.mem_map.mp this
      cases heq
      exact ⟨ps, hf1 _ hq, rfl, hps⟩
    · exact ⟨h, o, [], rfl, hno⟩

theorem hsafe_jobManagerPass_ord (d : Daemon) :
    HSafe (OrdA d) (fun _ h => ∀ id, Served d h id) (jobManagerPass d) [] := by
  unfold jobManagerPass
  refine hsafe_bind (hsafe_calm (only_manageRunning quiet_noUpdate (by simp) (by simp) (by simp)) _) ?_
  rintro _ h0 ⟨t, hg, ht⟩
  exact hsafe_schedule_ord d h0 (by rw [hg, assigned_append, ht]; rfl)

/-! ## In the concurrent system -/

theorem During.ordered {st : String} {d : Daemon} {s : Sys} {h : Past} (hd : During st d s h) :
    HSafe (OrdA d) (fun _ h => ∀ id, Served d h id) s.jm h ∧
      ∀ h₁ x h₂, h = h₁ ++ x :: h₂ → OrdA d h₁ x.2 := by
  induction hd with
  | start _ ha =>
    refine ⟨?_, by simp⟩
    simp only [act] at ha
    split at ha
    · cases ha; exact hsafe_jobManagerPass_ord d
    · cases ha
  | @own s s' h o k _ hk ha ih =>
    obtain ⟨ih, ih2⟩ := ih
    rw [hk] at ih
    simp only [act, hk, stepProg] at ha
    cases ha
    refine ⟨ih.2 s.w, ?_⟩
    intro h₁ x h₂ he
    rcases List.append_eq_append_iff.mp he with ⟨a, h1, h2⟩ | ⟨a, h1, h2⟩
    · cases a with
      | nil =>
        simp only [List.nil_append, List.cons.injEq] at h2
        simp only [List.append_nil] at h1
        subst h1
        rw [← h2.1]
        exact ih.1
      | cons y a =>
        simp only [List.cons_append, List.cons.injEq] at h2
        have := congrArg List.length h2.2
        simp at this
    · cases a with
      | nil =>
        simp only [List.nil_append, List.cons.injEq] at h2
        simp only [List.append_nil] at h1
        subst h1
        rw [h2.1]
        exact ih.1
      | cons y a =>
        simp only [List.cons_append, List.cons.injEq] at h2
        obtain ⟨rfl, h2⟩ := h2
        exact ih2 h₁ x a h1
  | other _ h1 h2 h3 ha ih => rw [jm_other h1 h2 h3 ha]; exact ih

namespace Props

/-- **C19** (order): in any execution, at any moment of a pass of the job manager, for every
assignment made so far in this pass: all assignments before it went to jobs with lower ids, and no
job with a lower id had been passed over. -/
theorem C19_order {st : String} {d : Daemon} {s : Sys} {h : Past} (hd : During st d s h)
    (j : Nat) (n : String) (hj : (j, n) ∈ assigned h) :
    ∃ h₁ x h₂, h = h₁ ++ x :: h₂ ∧ assignOf x.2 = some (j, n) ∧
      (∀ q ∈ assigned h₁, q.1 < j) ∧ ∀ id, id < j → Served d h₁ id := by
  simp only [assigned, List.mem_filterMap] at hj
  obtain ⟨x, hx, hxj⟩ := hj
  obtain ⟨h₁, h₂, rfl⟩ := List.append_of_mem hx
  have := hd.ordered.2 h₁ x h₂ rfl j n hxj
  exact ⟨h₁, x, h₂, rfl, hxj, this.1, this.2⟩

/-- **C19** (partial): in any execution, when a pass of the job manager has come to its end, no job
has been passed over: each job that was waiting throughout the pass has been assigned to a pipeline,
or every pipeline that was suitable throughout the pass has been assigned to a job with a lower id
or was not available (occupied, not ready, or without the sample) at some moment before the first
assignment.  Missing: passes that end with an exception, after which jobs with higher ids are left
without a pipeline (`C19_refuted`). -/
theorem C19_first_come_partial {st : String} {d : Daemon} {s : Sys} {h : Past}
    (hd : During st d s h) (hend : s.jm = .pure ()) (id : Nat) : Served d h id := by
  have := hd.ordered.1
  rw [hend] at this
  exact this id

/-- The history of `n` operations of the job manager. -/
def jmHist : Nat → Sys → Past
  | 0, _ => []
  | n + 1, s => match s.jm with
    | .op o k => (s.w, o) :: jmHist n { s with jm := k (exec o s.w).1, w := (exec o s.w).2 }
    | _ => []

theorem during_jm {st : String} {d : Daemon} (n : Nat) : ∀ (s : Sys) (h : Past), During st d s h →
    ∀ s', acts st s (jm n) = some s' → During st d s' (h ++ jmHist n s) := by
  induction n with
  | zero => intro s h hd s' hs; cases hs; rw [jmHist, List.append_nil]; exact hd
  | succ n ih =>
    intro s h hd s' hs
    simp only [jm, List.replicate_succ, acts] at hs
    split at hs
    · next s1 h1 =>
      cases hjm : s.jm with
      | pure a => simp [act, hjm, stepProg] at h1
      | raise e => simp [act, hjm, stepProg] at h1
      | op o k =>
        have := ih s1 _ (.own hd hjm h1) s' hs
        simp only [act, hjm, stepProg, Option.some.injEq] at h1
        subst h1
        rw [List.append_assoc] at this
        simp only [jmHist, hjm]
        exact this
    · cases hs

/-- Two jobs for the same sample wait for `p`, the job manager has made a complete pass. -/
def sTwo : Sys :=
  after ([.spawn (.submit (.parsed (plS "s")) none dRun "/home")] ++ run 5 4 ++ [.jmStart dRun]) sSetup

/-- A pass in which job 2 was waiting, `p` was suitable, and job 2 has to stand back behind job 1. -/
example : ∃ s h, During "Jobs" dRun s h ∧ s.jm = .pure () ∧
    Waiting h 2 [{ role := "x", technique := "t" }] "s" ∧
    Fits dRun h [{ role := "x", technique := "t" }] "p" ∧ assigned h = [(1, "p")] := by
  have h0 : (acts "Jobs" sSetup ([.spawn (.submit (.parsed (plS "s")) none dRun "/home")] ++ run 5 4)).isSome = true := by
    decide +kernel
  obtain ⟨s0, hs0⟩ := Option.isSome_iff_exists.mp h0
  have hr0 : Reachable "Jobs" s0 := Steps.trans sSetup_reachable (steps_of_acts hs0)
  have hst : act "Jobs" s0 (.jmStart dRun) = some sTwo := by cases hs0; rfl
  have h : (acts "Jobs" sTwo (jm 32)).isSome = true := by decide +kernel
  obtain ⟨s, hs⟩ := Option.isSome_iff_exists.mp h
  have hd := during_jm 32 _ [] (.start hr0 hst) s hs
  refine ⟨s, _, hd, ?_, ?_, ?_, ?_⟩
  · cases hs; rfl
  · unfold Waiting
    decide +kernel
  · refine ⟨⟨"p", [("x", "d:(a,1)")]⟩, by decide, rfl, ?_⟩
    intro t ht
    simp only [List.mem_singleton] at ht
    subst ht
    have hall : ∀ x ∈ [] ++ jmHist 32 sTwo, (∀ row ∈ x.1.drvs, row.name = "d" → row.port = some 5000) ∧
        x.1.drv 5000 (.capabilities "a" "1") = some { success := true, data := some ["t"] } ∧
        x.1.drv 5000 (.validate { role := "x", technique := "t" } "a" "1") =
          some { success := true, data := some [] } := by decide +kernel
    refine ⟨⟨"x", "d:(a,1)", ⟨"d:(a,1)", "dev", "d", "a", "1"⟩, by decide, rfl, 5000, fun x hx => ?_⟩,
      ⟨"d:(a,1)", ⟨"d:(a,1)", "dev", "d", "a", "1"⟩, by decide, rfl, 5000, fun x hx => ?_⟩⟩
    · exact ⟨(hall x hx).1, _, (hall x hx).2.1, rfl, _, rfl, by decide⟩
    · exact ⟨(hall x hx).1, _, (hall x hx).2.2, rfl⟩
  · decide +kernel

/-- The job manager is killed right after it has made the folder of job 1; then job 2 is submitted,
for the ready pipeline `q`. -/
def sFolder : Sys :=
  after ([.spawn (.load (some dRun) "q" "t")] ++ run 5 3 ++
    [.spawn (.ready (some dRun) "q")] ++ run 6 3 ++ [.jmStart dRun] ++ jm 15 ++ [.jmKill] ++
    [.spawn (.submit (.parsed (plS "t")) none dRun "/home")] ++ run 7 4) sSetup

/-- **C19 is false of the code** for passes that raise: a folder left over from an interrupted
assignment of job 1 ends the pass with `FileExistsError`, and job 2, which has just been matched
(`qw`), is left without a pipeline although `q` is free, ready and has its sample, and nothing has
been assigned to anybody. -/
theorem C19_refuted : ∃ s s' : Sys, Reachable "Jobs" s ∧
    acts "Jobs" s ([.jmStart dRun] ++ jm 23) = some s' ∧ s'.jm = .raise .fileExistsError ∧
    statusOf s 2 = some .q ∧ statusOf s' 2 = some .qw ∧ s'.w.launches = [] ∧
    s.w.pips = s'.w.pips ∧
    s'.w.pip? "q" = some { name := "q", ready := true, jobid := none, sampleid := some "t" } ∧
    (s'.w.job? 2).map (·.payload.sample) = some "t" := by
  have hr : Reachable "Jobs" sFolder := Steps.trans sSetup_reachable (steps_after (by decide +kernel))
  have h : (acts "Jobs" sFolder ([.jmStart dRun] ++ jm 23)).isSome = true := by decide +kernel
  refine ⟨sFolder, after ([.jmStart dRun] ++ jm 23) sFolder, hr, ?_, rfl, ?_, ?_, ?_, ?_, ?_, ?_⟩
  · obtain ⟨s', hs'⟩ := Option.isSome_iff_exists.mp h
    unfold after
    rw [hs']; rfl
  all_goals rfl

end Props

end Tomato
