import Verif.Props.System

/-!
# C16: jobs only start on matching pipelines

The history of a pass of the job manager: the operations it has performed and the worlds in which
it has performed them, whatever the others did in between.
-/

namespace Tomato

/-- The operations performed so far, each with the world before it. -/
abbrev Past := List (World × Op)

/-- At some moment of the pass, `P` was true of the world. -/
def Past.once (h : Past) (P : World → Prop) : Prop := ∃ x ∈ h, P x.1

theorem Past.once.append {h : Past} {P : World → Prop} (h1 : h.once P) (h' : Past) : (h ++ h').once P := by
  obtain ⟨x, hx, hp⟩ := h1
  exact ⟨x, List.mem_append_left _ hx, hp⟩

theorem Past.once.mono {h : Past} {P P' : World → Prop} (h1 : h.once P) (hp : ∀ w, P w → P' w) :
    h.once P' := by
  obtain ⟨x, hx, hx'⟩ := h1
  exact ⟨x, hx, hp _ hx'⟩

/-! ## Specification -/

/-- The driver of a component has answered, at some moment of the pass, to a request sent to the port
that was on record for it at some moment of the pass. -/
def Answered (h : Past) (cmp : Component) (c : DrvCmd) (ok : DrvReply → Prop) : Prop :=
  ∃ port, h.once (fun w => ∃ row ∈ w.drvs, row.name = cmp.driver ∧ row.port = some port) ∧
    h.once (fun w => ∃ r, w.drv port c = some r ∧ ok r)

/-- The pipeline is configured under this name, it has the roles of all tasks, its components provide
all techniques, and for every task one of its components with the task's role has accepted it. -/
structure Suitable (d : Daemon) (h : Past) (method : List Task) (n : String) : Prop where
  /-- roles, techniques, validation -/
  fits : ∃ pl ∈ Dict.values d.devicefile.pipelines, pl.name = n ∧ ∀ t ∈ method,
    (∃ c, (t.role, c) ∈ pl.components) ∧
    (∃ role c cmp, (role, c) ∈ pl.components ∧ Dict.get? d.devicefile.components c = some cmp ∧
      Answered h cmp (.capabilities cmp.address cmp.channel)
        (fun r => r.success = true ∧ ∃ caps, r.data = some caps ∧ t.technique ∈ caps)) ∧
    (∃ c cmp, (t.role, c) ∈ pl.components ∧ Dict.get? d.devicefile.components c = some cmp ∧
      Answered h cmp (.validate t cmp.address cmp.channel) (fun r => r.success = true))

/-- At some moment of the pass the pipeline was free, ready and held the sample. -/
def WasFree (h : Past) (n sample : String) : Prop :=
  h.once (fun w => ∃ p ∈ w.pips, p.name = n ∧ p.ready = true ∧ p.jobid = none ∧
    p.sampleid = some sample)

/-- The job was seen in the table. -/
def WasJob (h : Past) (job : Job) : Prop := h.once (fun w => job ∈ w.jobs)

/-- What must have been seen before `j` is assigned to `n`. -/
def Justified (d : Daemon) (h : Past) (n : String) (j : Nat) : Prop :=
  ∃ job₁ job₂ : Job, job₁.id = j ∧ job₂.id = j ∧ WasJob h job₁ ∧ WasJob h job₂ ∧
    job₁.status.queued = true ∧
    Suitable d h job₁.payload.method n ∧ WasFree h n job₂.payload.sample

/-! ## Monotonicity -/

theorem Answered.append {h : Past} {cmp : Component} {c : DrvCmd} {ok : DrvReply → Prop}
    (h1 : Answered h cmp c ok) (h' : Past) : Answered (h ++ h') cmp c ok := by
  obtain ⟨port, h2, h3⟩ := h1
  exact ⟨port, h2.append h', h3.append h'⟩

theorem Suitable.append {d : Daemon} {h : Past} {m : List Task} {n : String} (h1 : Suitable d h m n)
    (h' : Past) : Suitable d (h ++ h') m n := by
  obtain ⟨pl, hpl, hn, hall⟩ := h1
  refine ⟨pl, hpl, hn, fun t ht => ?_⟩
  obtain ⟨h2, ⟨role, c, cmp, h3, h4, h5⟩, ⟨c', cmp', h6, h7, h8⟩⟩ := hall t ht
  exact ⟨h2, ⟨role, c, cmp, h3, h4, h5.append h'⟩, ⟨c', cmp', h6, h7, h8.append h'⟩⟩

/-! ## A logic for histories -/

/-- Executed from the history `h`, in any sequence of worlds, every operation satisfies `A` for the
history before it, and `Q` holds of the result. -/
def HSafe (A : Past → Op → Prop) {α : Type} (Q : α → Past → Prop) : Prog DB α → Past → Prop
  | .pure a, h => Q a h
  | .raise _, _ => True
  | .op o k, h => A h o ∧ ∀ w, HSafe A Q (k (exec o w).1) (h ++ [(w, o)])

section
variable {A : Past → Op → Prop} {α β : Type}

theorem hsafe_bind {p : Prog DB α} {f : α → Prog DB β} {Q : α → Past → Prop} {Q' : β → Past → Prop}
    {h : Past} (hp : HSafe A Q p h) (hf : ∀ a h', Q a h' → HSafe A Q' (f a) h') :
    HSafe A Q' (Prog.bind p f) h := by
  induction p generalizing h with
  | pure a => exact hf a h hp
  | raise e => trivial
  | op o k ih => exact ⟨hp.1, fun w => ih _ (hp.2 w)⟩

theorem hsafe_mono {p : Prog DB α} {Q Q' : α → Past → Prop} {h : Past} (hp : HSafe A Q p h)
    (hq : ∀ a h', Q a h' → Q' a h') : HSafe A Q' p h := by
  induction p generalizing h with
  | pure a => exact hq a h hp
  | raise e => trivial
  | op o k ih => exact ⟨hp.1, fun w => ih _ (hp.2 w)⟩

theorem hsafe_call {o : Op} {Q : Resp o → Past → Prop} {h : Past} (hA : A h o)
    (hQ : ∀ w a, (exec o w).1 = .ok a → Q a (h ++ [(w, o)])) :
    HSafe A Q (Prog.call (S := DB) o) h := by
  refine ⟨hA, fun w => ?_⟩
  rcases hh : (exec o w).1 with e | a
  · trivial
  · exact hQ w a hh

/-- Programs that never assign; the history only grows. -/
theorem hsafe_of_only {P : Op → Prop} (hop : ∀ o h, P o → A h o) {p : Prog DB α}
    (hp : Prog.Only (S := DB) P p) (h : Past) :
    HSafe A (fun _ h' => ∃ t, h' = h ++ t) p h := by
  induction p generalizing h with
  | pure a => exact ⟨[], by simp⟩
  | raise e => trivial
  | op o k ih =>
    refine ⟨hop o h hp.1, fun w => hsafe_mono (ih _ (hp.2 _) _) ?_⟩
    rintro a h' ⟨t, rfl⟩
    exact ⟨(w, o) :: t, by simp⟩

/-- The history only grows, with any postcondition. -/
theorem hsafe_grow {p : Prog DB α} {Q : α → Past → Prop} {h : Past} (hp : HSafe A Q p h) :
    HSafe A (fun a h' => Q a h' ∧ ∃ t, h' = h ++ t) p h := by
  induction p generalizing h with
  | pure a => exact ⟨hp, [], by simp⟩
  | raise e => trivial
  | op o k ih =>
    refine ⟨hp.1, fun w => hsafe_mono (ih _ (hp.2 w)) ?_⟩
    rintro a h' ⟨h1, t, rfl⟩
    exact ⟨h1, (w, o) :: t, by simp⟩

end

/-- What must have been seen before `j` is marked `qw`. -/
def Promised (d : Daemon) (h : Past) (j : Nat) : Prop :=
  ∃ job : Job, job.id = j ∧ WasJob h job ∧ job.status = .q ∧ ∃ n, Suitable d h job.payload.method n

/-- The only restrictions: assignments are justified, and so is the status `qw`. -/
def JustA (d : Daemon) (h : Past) (o : Op) : Prop :=
  (∀ n ps j, o = .updatePip n ps → .jobid (some j) ∈ ps → Justified d h n j) ∧
  (∀ j ps, o = .updateJob j ps → .status .qw ∈ ps → Promised d h j)

/-- Operations that neither assign nor promise. -/
def NoUpd (o : Op) : Prop :=
  (∀ n ps, o ≠ .updatePip n ps) ∧ (∀ j ps, o = .updateJob j ps → .status .qw ∉ ps)

theorem justA_of_ne {d : Daemon} {o : Op} (ho : NoUpd o) (h : Past) : JustA d h o :=
  ⟨fun n ps _ h1 => absurd h1 (ho.1 n ps), fun j ps h1 h2 => absurd h2 (ho.2 j ps h1)⟩

variable {d : Daemon}

/-- `getDrv` and a request to the driver. -/
theorem hsafe_ask {β : Type} {cmp : Component} {Q : β → Past → Prop} (h : Past)
    (f : Option DrvState → P β)
    (hnone : ∀ h', (∃ t, h' = h ++ t) → HSafe (JustA d) Q (f none) h')
    (hsome : ∀ row h', (∃ t, h' = h ++ t) →
      h'.once (fun w => ∃ r ∈ w.drvs, r.name = cmp.driver ∧ r.port = row.port) →
      HSafe (JustA d) Q (f (some row)) h') :
    HSafe (JustA d) Q (Prog.bind (Do.getDrv cmp.driver) f) h := by
  refine hsafe_bind (Q := fun r h' => (∃ t, h' = h ++ t) ∧ ∀ row, r = some row →
    h'.once (fun w => ∃ r ∈ w.drvs, r.name = cmp.driver ∧ r.port = row.port)) ?_ ?_
  · refine hsafe_call (justA_of_ne (by simp [NoUpd]) _) ?_
    intro w a ha
    simp only [exec, Except.ok.injEq] at ha
    subst ha
    refine ⟨⟨_, rfl⟩, fun row hr => ⟨_, List.mem_append_right _ (List.mem_singleton.mpr rfl), ?_⟩⟩
    obtain ⟨h1, h2⟩ := drv?_some hr
    exact ⟨row, h2, h1, rfl⟩
  · rintro r h' ⟨h1, h2⟩
    cases r with
    | none => exact hnone h' h1
    | some row => exact hsome row h' h1 (h2 row rfl)

theorem hsafe_validateTask (task : Task) (cs : Dict String String) (h : Past) :
    HSafe (JustA d) (fun b h' => b = true → ∃ c cmp, (task.role, c) ∈ cs ∧
        Dict.get? d.devicefile.components c = some cmp ∧
        Answered h' cmp (.validate task cmp.address cmp.channel) (fun r => r.success = true))
      (validateTask d task cs) h := by
  induction cs generalizing h with
  | nil => intro h; cases h
  | cons kv rest ih =>
    obtain ⟨crole, cname⟩ := kv
    have more : ∀ h', HSafe (JustA d) (fun b h' => b = true → ∃ c cmp, (task.role, c) ∈ (crole, cname) :: rest ∧
        Dict.get? d.devicefile.components c = some cmp ∧
        Answered h' cmp (.validate task cmp.address cmp.channel) (fun r => r.success = true))
        (validateTask d task rest) h' := by
      intro h'
      refine hsafe_mono (ih h') ?_
      intro b h'' hb ht
      obtain ⟨c, cmp, h1, h2⟩ := hb ht
      exact ⟨c, cmp, List.mem_cons_of_mem _ h1, h2⟩
    unfold validateTask
    split
    · next hrole =>
      split
      · trivial
      · next cmp hcmp =>
        refine hsafe_ask (cmp := cmp) h _ (fun _ _ => trivial) (fun row h' hg hrow => ?_)
        refine hsafe_bind (Q := fun r h'' => r.success = true →
          Answered h'' cmp (.validate task cmp.address cmp.channel) (fun r => r.success = true)) ?_ ?_
        · refine hsafe_call (justA_of_ne (by simp [NoUpd]) _) ?_
          intro w a ha hsucc
          cases hport : row.port with
          | none => rw [hport] at ha; simp [exec] at ha
          | some port =>
            rw [hport] at ha hrow
            simp only [exec, Except.ok.injEq] at ha
            refine ⟨port, hrow.append _, ⟨_, List.mem_append_right _ (List.mem_singleton.mpr rfl), ?_⟩⟩
            cases hr : w.drv port (.validate task cmp.address cmp.channel) with
            | none => rw [hr] at ha; subst ha; simp at hsucc
            | some r => rw [hr] at ha; exact ⟨r, hr, by subst ha; exact hsucc⟩
        · intro r h'' hr
          split
          · next hs => exact fun _ => ⟨cname, cmp, by simp [hrole], hcmp, hr hs⟩
          · exact more h''
    · exact more h

theorem hsafe_methodValidate (pip : Pipeline) (ts : List Task) (h : Past) :
    HSafe (JustA d) (fun b h' => b = true → ∀ t ∈ ts, ∃ c cmp, (t.role, c) ∈ pip.components ∧
        Dict.get? d.devicefile.components c = some cmp ∧
        Answered h' cmp (.validate t cmp.address cmp.channel) (fun r => r.success = true))
      (methodValidate d pip ts) h := by
  induction ts generalizing h with
  | nil => intro _ t ht; cases ht
  | cons t ts ih =>
    unfold methodValidate
    refine hsafe_bind (hsafe_validateTask t pip.components h) ?_
    intro b h' hb
    split
    · next hbt =>
      refine hsafe_mono (hsafe_grow (ih h')) ?_
      rintro b' h'' ⟨h1, tl, rfl⟩ ht x hx
      rcases List.mem_cons.mp hx with rfl | hx
      · obtain ⟨c, cmp, h2, h3, h4⟩ := hb hbt
        exact ⟨c, cmp, h2, h3, h4.append tl⟩
      · exact h1 ht x hx
    · intro h; cases h

/-- What the collected capabilities mean. -/
def CapsOK (d : Daemon) (cs : List String) (caps : List String) (h : Past) : Prop :=
  ∀ t ∈ caps, ∃ c ∈ cs, ∃ cmp, Dict.get? d.devicefile.components c = some cmp ∧
    Answered h cmp (.capabilities cmp.address cmp.channel)
      (fun r => r.success = true ∧ ∃ caps, r.data = some caps ∧ t ∈ caps)

theorem CapsOK.append {cs caps : List String} {h : Past} (hc : CapsOK d cs caps h) (h' : Past) :
    CapsOK d cs caps (h ++ h') := by
  intro t ht
  obtain ⟨c, h1, cmp, h2, h3⟩ := hc t ht
  exact ⟨c, h1, cmp, h2, h3.append h'⟩

theorem hsafe_collectCapabs (all cs : List String) (hsub : ∀ c ∈ cs, c ∈ all) (caps : List String) (h : Past)
    (hc : CapsOK d all caps h) :
    HSafe (JustA d) (fun caps' h' => CapsOK d all caps' h') (collectCapabs d cs caps) h := by
  induction cs generalizing caps h with
  | nil => exact hc
  | cons cname rest ih =>
    have hsub' : ∀ c ∈ rest, c ∈ all := fun c hc => hsub c (List.mem_cons_of_mem _ hc)
    unfold collectCapabs
    split
    · trivial
    · next cmp hcmp =>
      refine hsafe_ask (cmp := cmp) h _ (fun _ _ => trivial) (fun row h' hg hrow => ?_)
      refine hsafe_bind (Q := fun r h'' => CapsOK d all caps h'' ∧ ∀ l, r.success = true → r.data = some l →
        CapsOK d all l h'') ?_ ?_
      · refine hsafe_call (justA_of_ne (by simp [NoUpd]) _) ?_
        intro w a ha
        obtain ⟨tl, rfl⟩ := hg
        refine ⟨by rw [List.append_assoc]; exact hc.append _, ?_⟩
        intro l hs hl t ht
        cases hport : row.port with
        | none => rw [hport] at ha; simp [exec] at ha
        | some port =>
          rw [hport] at ha hrow
          simp only [exec] at ha
          refine ⟨cname, hsub cname (by simp), cmp, hcmp, port, hrow.append _,
            ⟨_, List.mem_append_right _ (List.mem_singleton.mpr rfl), ?_⟩⟩
          cases hr : w.drv port (.capabilities cmp.address cmp.channel) with
          | none => rw [hr] at ha; cases ha
          | some r =>
            rw [hr] at ha
            cases ha
            exact ⟨_, hr, hs, l, hl, ht⟩
      · rintro r h'' ⟨h1, h2⟩
        split
        · next l hs hl =>
          refine ih hsub' _ _ ?_
          intro t ht
          rcases List.mem_append.mp ht with ht | ht
          · exact h1 t ht
          · exact h2 l hs hl t ht
        · exact ih hsub' _ _ h1

theorem hsafe_matchLoop (method : List Task) (ps : List Pipeline) (cands : List String) (h : Past)
    (hps : ∀ p ∈ ps, p ∈ Dict.values d.devicefile.pipelines)
    (hc : ∀ n ∈ cands, Suitable d h method n) :
    HSafe (JustA d) (fun l h' => ∀ n ∈ l, Suitable d h' method n) (matchLoop d method ps cands) h := by
  induction ps generalizing cands h with
  | nil => exact hc
  | cons pip rest ih =>
    have hps' : ∀ p ∈ rest, p ∈ Dict.values d.devicefile.pipelines :=
      fun p hp => hps p (List.mem_cons_of_mem _ hp)
    have keep : ∀ t, ∀ n ∈ cands, Suitable d (h ++ t) method n := fun t n hn => (hc n hn).append t
    unfold matchLoop
    split
    · next hroles =>
      refine hsafe_bind (hsafe_grow (hsafe_collectCapabs (d := d) (Dict.values pip.components) _
        (fun _ h => h) [] h (by intro t ht; cases ht))) ?_
      rintro capabs h' ⟨hcaps, t1, rfl⟩
      split
      · next htech =>
        refine hsafe_bind (hsafe_grow (hsafe_methodValidate (d := d) pip method (h ++ t1))) ?_
        rintro b h'' ⟨hb, t2, rfl⟩
        split
        · next hbt =>
          refine ih _ _ hps' ?_
          intro n hn
          rcases List.mem_append.mp hn with hn | hn
          · rw [List.append_assoc]; exact keep _ n hn
          · simp only [List.mem_singleton] at hn
            subst hn
            refine ⟨pip, hps pip (by simp), rfl, fun t ht => ⟨?_, ?_, hb hbt t ht⟩⟩
            · have := List.all_eq_true.mp hroles t.role (List.mem_map.mpr ⟨t, ht, rfl⟩)
              rw [List.contains_iff_mem] at this
              obtain ⟨kv, hkv, hk⟩ := List.mem_map.mp this
              exact ⟨kv.2, by rw [← hk]; exact hkv⟩
            · have := List.all_eq_true.mp htech t.technique (List.mem_map.mpr ⟨t, ht, rfl⟩)
              rw [List.contains_iff_mem] at this
              obtain ⟨c, h1, cmp, h2, h3⟩ := (hcaps.append t2) _ this
              obtain ⟨kv, hkv, hk⟩ := List.mem_map.mp h1
              exact ⟨kv.1, c, cmp, by rw [← hk]; exact hkv, h2, h3⟩
        · refine ih _ _ hps' ?_
          rw [List.append_assoc]
          exact keep _
      · exact ih _ _ hps' (keep _)
    · exact ih _ _ hps' hc

/-- What the result of `check_queued` means. -/
def MatchedOK (d : Daemon) (m : Dict Nat (List String)) (h : Past) : Prop :=
  ∀ id ms, Dict.get? m id = some ms → ∃ job : Job, job.id = id ∧ WasJob h job ∧ job.status.queued = true ∧
    ∀ n ∈ ms, Suitable d h job.payload.method n

theorem MatchedOK.append {m : Dict Nat (List String)} {h : Past} (hm : MatchedOK d m h) (h' : Past) :
    MatchedOK d m (h ++ h') := by
  intro id ms h1
  obtain ⟨job, h2, h3, h4, h5⟩ := hm id ms h1
  exact ⟨job, h2, h3.append h', h4, fun n hn => (h5 n hn).append h'⟩

theorem only_noUpdate_justA {α : Type} {p : Prog DB α}
    (hp : Prog.Only (S := DB) NoUpd p) (h : Past) :
    HSafe (JustA d) (fun _ h' => ∃ t, h' = h ++ t) p h :=
  hsafe_of_only (fun _ h ho => justA_of_ne ho h) hp h

theorem quiet_noUpdate : ∀ o, QuietOp o → ∀ n ps, o ≠ .updatePip n ps := by
  intro o ho n ps h
  subst h
  cases ho

theorem quiet_noUpd : ∀ o, QuietOp o → NoUpd o := by
  intro o ho
  refine ⟨fun n ps h => ?_, fun j ps h => ?_⟩ <;> (subst h; cases ho)

theorem hsafe_checkLoop (jobs : List Job) (m : Dict Nat (List String)) (h : Past)
    (hj : ∀ j ∈ jobs, WasJob h j ∧ j.status.queued = true) (hm : MatchedOK d m h) :
    HSafe (JustA d) (fun m' h' => MatchedOK d m' h') (checkLoop d jobs m) h := by
  induction jobs generalizing m h with
  | nil => exact hm
  | cons job rest ih =>
    unfold checkLoop
    refine hsafe_bind (hsafe_grow (hsafe_matchLoop (d := d) job.payload.method _ [] h (fun _ h => h)
      (by intro n hn; cases hn))) ?_
    rintro ms h' ⟨hms, t1, rfl⟩
    have hset : MatchedOK d (Dict.set m job.id ms) (h ++ t1) := by
      intro id ms' hget
      rw [Dict.get?_set] at hget
      split at hget
      · next hid =>
        cases hget
        exact ⟨job, hid, (hj job (by simp)).1.append _, (hj job (by simp)).2, hms⟩
      · exact (hm.append t1) id ms' hget
    have hrest : ∀ t, ∀ j ∈ rest, WasJob (h ++ t1 ++ t) j ∧ j.status.queued = true := fun t j hjm =>
      ⟨((hj j (List.mem_cons_of_mem _ hjm)).1.append t1).append t, (hj j (List.mem_cons_of_mem _ hjm)).2⟩
    split
    · next hqw =>
      refine hsafe_bind (Q := fun _ h' => ∃ t, h' = h ++ t1 ++ t) ?_ ?_
      · unfold updateJobId
        refine hsafe_bind (Q := fun _ h' => ∃ t, h' = h ++ t1 ++ t) ?_ ?_
        · refine hsafe_call ⟨by simp, ?_⟩ (fun w a _ => ⟨_, rfl⟩)
          intro j ps heq _
          cases heq
          obtain ⟨n, hn⟩ := List.exists_mem_of_length_pos hqw.1
          exact ⟨job, rfl, (hj job (by simp)).1.append _, hqw.2, n, hms n hn⟩
        · rintro _ h' ⟨t2, rfl⟩
          refine hsafe_mono (only_noUpdate_justA (only_getJobId quiet_noUpd _) _) ?_
          rintro _ _ ⟨t3, rfl⟩
          exact ⟨t2 ++ t3, by simp⟩
      rintro _ h'' ⟨t2, rfl⟩
      exact ih _ _ (hrest t2) (hset.append t2)
    · exact ih _ _ (by simpa using hrest []) hset

/-- What the job manager knows about the pipelines it thinks are available. -/
def AvailOK (avail : Dict String PipState) (h : Past) : Prop :=
  ∀ n ps, Dict.get? avail n = some ps → h.once (fun w => ∃ p ∈ w.pips, p.name = n ∧ p = ps ∧ p.jobid = none)

theorem AvailOK.append {avail : Dict String PipState} {h : Past} (ha : AvailOK avail h) (h' : Past) :
    AvailOK avail (h ++ h') := fun n ps hn => (ha n ps hn).append h'

theorem hsafe_assignJob (job₁ job : Job) (h₁ : job₁.id = job.id) (hq : job₁.status.queued = true)
    (ns : List String) (avail : Dict String PipState) (h : Past)
    (hw₁ : WasJob h job₁) (hw : WasJob h job) (hs : ∀ n ∈ ns, Suitable d h job₁.payload.method n)
    (ha : AvailOK avail h) :
    HSafe (JustA d) (fun a h' => AvailOK a h' ∧ ∃ t, h' = h ++ t) (assignJob d job.id job ns avail) h := by
  induction ns generalizing h with
  | nil => exact ⟨ha, [], by simp⟩
  | cons n ns ih =>
    have hs' : ∀ n ∈ ns, Suitable d h job₁.payload.method n := fun n hn => hs n (List.mem_cons_of_mem _ hn)
    unfold assignJob
    split
    · exact ih h hw₁ hw hs' ha
    · next ps hps =>
      split
      · exact ih h hw₁ hw hs' ha
      · next hsuit =>
        have hsuit' : ps.ready = true ∧ ps.sampleid = some job.payload.sample := by
          refine ⟨?_, ?_⟩
          · cases hr : ps.ready with
            | true => rfl
            | false => exact absurd (.inl (by simp [hr])) hsuit
          · rcases Decidable.em (ps.sampleid = some job.payload.sample) with h | h
            · exact h
            · exact absurd (.inr h) hsuit
        refine hsafe_bind (only_noUpdate_justA (p := Do.makeJobDir d.settings.storage job.id)
          ((Do.only_makeJobDir _ _).mpr (by simp [NoUpd])) h) ?_
        rintro _ h' ⟨t1, rfl⟩
        split
        · trivial
        · refine hsafe_bind (Q := fun _ h' => ∃ t, h' = h ++ t1 ++ t) ?_ ?_
          · unfold updatePip
            refine hsafe_bind (Q := fun _ h' => ∃ t, h' = h ++ t1 ++ t) ?_ ?_
            · refine hsafe_call ⟨?_, by simp⟩ (fun w a _ => ⟨_, rfl⟩)
              intro n' ps' j heq hmem
              cases heq
              have hj : j = job.id := by simpa using hmem
              subst hj
              refine ⟨job₁, job, h₁, rfl, hw₁.append _, hw.append _, hq,
                (hs n (by simp)).append _, ?_⟩
              refine ((ha n ps hps).append t1).mono ?_
              rintro w ⟨p, hp, hpn, rfl, hpj⟩
              exact ⟨p, hp, hpn, hsuit'.1, hpj, hsuit'.2⟩
            · rintro _ h' ⟨t2, rfl⟩
              refine hsafe_mono (only_noUpdate_justA (p := Do.getPip n) ((Do.only_getPip _).mpr (by simp [NoUpd])) _) ?_
              rintro _ _ ⟨t3, rfl⟩
              exact ⟨t2 ++ t3, by simp⟩
          · rintro _ h' ⟨t2, rfl⟩
            have hlast : Prog.Only (S := DB) NoUpd
                (Prog.bind (Do.popenJob job.id n) (fun _ => Prog.bind Do.now (fun now =>
                  updateJobId job.id [.launchedAt (some now)]))) := by
              refine Prog.only_bind ((Do.only_popenJob _ _).mpr (by simp [NoUpd])) (fun _ => ?_)
              refine Prog.only_bind (Do.only_now.mpr (by simp [NoUpd])) (fun t => ?_)
              exact only_updateJobId quiet_noUpd _ _ (by simp [NoUpd])
            have hsafe := hsafe_bind (only_noUpdate_justA (d := d) hlast (h ++ t1 ++ t2))
              (f := fun _ => Prog.pure (S := DB) (Dict.erase avail n))
              (Q' := fun a h' => AvailOK a h' ∧ ∃ t, h' = h ++ t) (by
                rintro _ _ ⟨t3, rfl⟩
                refine ⟨?_, t1 ++ t2 ++ t3, by simp⟩
                intro m ps' hm
                rw [Dict.get?_erase] at hm
                split at hm
                · cases hm
                · simp only [List.append_assoc]
                  exact (ha.append _) m ps' hm)
            simp only [Prog.bind_assoc] at hsafe
            exact hsafe

theorem hsafe_getJobId (id : Nat) (h : Past) :
    HSafe (JustA d) (fun job h' => (∃ t, h' = h ++ t) ∧ job.id = id ∧ WasJob h' job) (getJobId id) h := by
  unfold getJobId
  refine hsafe_bind (Q := fun r h' => (∃ t, h' = h ++ t) ∧ ∀ job, r = some job → job.id = id ∧ WasJob h' job) ?_ ?_
  · refine hsafe_call (justA_of_ne (by simp [NoUpd]) _) ?_
    intro w a ha
    simp only [exec, Except.ok.injEq] at ha
    subst ha
    refine ⟨⟨_, rfl⟩, fun job hj => ?_⟩
    obtain ⟨h1, h2⟩ := job?_some hj
    exact ⟨h1, _, List.mem_append_right _ (List.mem_singleton.mpr rfl), h2⟩
  · rintro r h' ⟨h1, h2⟩
    split
    · exact ⟨h1, h2 _ rfl⟩
    · trivial

theorem hsafe_actionLoop (matched : Dict Nat (List String)) (ids : List Nat)
    (avail : Dict String PipState) (h : Past) (hm : MatchedOK d matched h) (ha : AvailOK avail h) :
    HSafe (JustA d) (fun _ _ => True) (actionLoop d matched ids avail) h := by
  induction ids generalizing avail h with
  | nil => trivial
  | cons id ids ih =>
    unfold actionLoop
    refine hsafe_bind (hsafe_getJobId id h) ?_
    rintro job h' ⟨⟨t1, rfl⟩, rfl, hw⟩
    split
    · trivial
    · next pnames hp =>
      obtain ⟨job₁, hid, hw₁, hq, hs⟩ := (hm.append t1) _ _ hp
      refine hsafe_bind (hsafe_assignJob job₁ job hid hq pnames avail _ hw₁ hw hs (ha.append t1)) ?_
      rintro avail' h' ⟨ha', t2, rfl⟩
      exact ih _ _ ((hm.append t1).append t2) ha'

theorem hsafe_jobManagerPass (d : Daemon) : HSafe (JustA d) (fun _ _ => True) (jobManagerPass d) [] := by
  unfold jobManagerPass
  refine hsafe_bind (only_noUpdate_justA (only_manageRunning quiet_noUpd (by simp [NoUpd]) (by simp [NoUpd])
    (by rintro id st t (rfl | rfl) <;> simp [NoUpd])) _) ?_
  rintro _ h ⟨t, rfl⟩
  refine hsafe_bind (Q := fun m h' => MatchedOK d m h') ?_ ?_
  · unfold checkQueued
    refine hsafe_bind (Q := fun l h' => ∀ j ∈ l, WasJob h' j ∧ j.status.queued = true) ?_ ?_
    · refine hsafe_call (justA_of_ne (by simp [NoUpd]) _) ?_
      intro w a ha
      simp only [exec, Except.ok.injEq] at ha
      subst ha
      intro j hj
      obtain ⟨h1, h2⟩ := List.mem_filter.mp hj
      exact ⟨⟨_, List.mem_append_right _ (List.mem_singleton.mpr rfl), h1⟩, h2⟩
    · intro l h' hl
      refine hsafe_checkLoop l [] h' hl ?_
      intro id ms hget
      cases hget
  · intro matched h' hm
    unfold actionQueued
    refine hsafe_bind (Q := fun free h'' => (∃ t, h'' = h' ++ t) ∧ ∀ p ∈ free,
      h''.once (fun w => p ∈ w.pips ∧ p.jobid = none)) ?_ ?_
    · refine hsafe_call (justA_of_ne (by simp [NoUpd]) _) ?_
      intro w a ha
      simp only [exec, Except.ok.injEq] at ha
      subst ha
      refine ⟨⟨_, rfl⟩, fun p hp => ?_⟩
      obtain ⟨h1, h2⟩ := List.mem_filter.mp hp
      exact ⟨_, List.mem_append_right _ (List.mem_singleton.mpr rfl), h1, by simpa using h2⟩
    · rintro free h'' ⟨⟨t2, rfl⟩, hfree⟩
      refine hsafe_actionLoop _ _ _ _ (hm.append t2) ?_
      intro n ps hn
      have := dict_ofList_mem _ _ _ hn
      obtain ⟨p, hp, heq⟩ := List.mem_map.mp this
      cases heq
      refine (hfree _ hp).mono ?_
      rintro w ⟨h1, h2⟩
      exact ⟨_, h1, rfl, rfl, h2⟩

/-! ## Passes of the job manager in the concurrent system -/

/-- In the system, a pass of the job manager with daemon `d` is under way, it has performed the
operations in the history. -/
inductive During (st : String) (d : Daemon) : Sys → Past → Prop
  | start {s s' : Sys} : Reachable st s → act st s (.jmStart d) = some s' → During st d s' []
  | own {s s' : Sys} {h : Past} {o : Op} {k : Except PyErr (Resp o) → P Unit} : During st d s h →
      s.jm = .op o k → act st s .jmStep = some s' → During st d s' (h ++ [(s.w, o)])
  | other {s s' : Sys} {h : Past} {a : Act} : During st d s h → (∀ d', a ≠ .jmStart d') → a ≠ .jmStep →
      a ≠ .jmKill → act st s a = some s' → During st d s' h

theorem During.reachable {st : String} {d : Daemon} {s : Sys} {h : Past} (hd : During st d s h) :
    Reachable st s := by
  induction hd with
  | start hr ha => exact .tail hr ⟨_, ha⟩
  | own _ _ ha ih => exact .tail ih ⟨_, ha⟩
  | other _ _ _ _ ha ih => exact .tail ih ⟨_, ha⟩

theorem jm_other {st : String} {s s' : Sys} {a : Act} (h1 : ∀ d', a ≠ .jmStart d') (h2 : a ≠ .jmStep)
    (h3 : a ≠ .jmKill) (ha : act st s a = some s') : s'.jm = s.jm := by
  cases a with
  | jmStart d => exact absurd rfl (h1 d)
  | jmStep => exact absurd rfl h2
  | jmKill => exact absurd rfl h3
  | spawn c =>
    simp only [act] at ha
    split at ha
    · cases ha; rfl
    · split at ha
      · cases ha; rfl
      · cases ha
  | step i =>
    simp only [act] at ha
    split at ha
    · cases ha
    · split at ha
      · cases ha; rfl
      · cases ha
  | kill i => cases ha; rfl
  | env e => cases ha; rfl

theorem During.safe {st : String} {d : Daemon} {s : Sys} {h : Past} (hd : During st d s h) :
    HSafe (JustA d) (fun _ _ => True) s.jm h := by
  induction hd with
  | start _ ha =>
    simp only [act] at ha
    split at ha
    · cases ha; exact hsafe_jobManagerPass d
    · cases ha
  | @own s s' h o k _ hk ha ih =>
    rw [hk] at ih
    simp only [act, hk, stepProg] at ha
    cases ha
    exact ih.2 s.w
  | other _ h1 h2 h3 ha ih => rw [jm_other h1 h2 h3 ha]; exact ih

/-- The worlds in the history are those of states passed before. -/
theorem During.past {st : String} {d : Daemon} {s : Sys} {h : Past} (hd : During st d s h) :
    ∀ x ∈ h, ∃ s₁, Reachable st s₁ ∧ s₁.w = x.1 ∧ Steps st s₁ s := by
  induction hd with
  | start => simp
  | @own s s' h o k hd _ ha ih =>
    intro x hx
    rcases List.mem_append.mp hx with hx | hx
    · obtain ⟨s₁, h1, h2, h3⟩ := ih x hx
      exact ⟨s₁, h1, h2, .tail h3 ⟨_, ha⟩⟩
    · simp only [List.mem_singleton] at hx
      subst hx
      exact ⟨s, hd.reachable, rfl, .tail (.refl _) ⟨_, ha⟩⟩
  | other _ _ _ _ ha ih =>
    intro x hx
    obtain ⟨s₁, h1, h2, h3⟩ := ih x hx
    exact ⟨s₁, h1, h2, .tail h3 ⟨_, ha⟩⟩

namespace Props

/-- **C16**: whenever, in any execution, a step of the job manager's pass makes a pipeline one
with the job `j` that was not before, then `j` is a job in the queue which was seen waiting, and during the pass
the pipeline was seen marked ready, without a job, and holding the sample of that very job; the
pipeline is configured; and every task of the job has its role in the pipeline, a component of the
pipeline whose driver named the task's technique among its capabilities, and a component with the
task's role whose driver accepted the task. -/
theorem C16_matching {st : String} {d : Daemon} {s s' : Sys} {h : Past} (hd : During st d s h)
    (ha : act st s .jmStep = some s') (p' : PipState) (hp' : p' ∈ s'.w.pips) (j : Nat)
    (hj : p'.jobid = some j) (hfree : ∀ p ∈ s.w.pips, p.name = p'.name → p.jobid ≠ some j) :
    ∃ job ∈ s.w.jobs, job.id = j ∧ WasFree h p'.name job.payload.sample ∧
      Suitable d h job.payload.method p'.name ∧
      h.once (fun w => ∃ job' ∈ w.jobs, job'.id = j ∧ job'.status.queued = true) := by
  have hs := hd.safe
  have hr := hd.reachable
  have hallow := reachable_jm hr
  simp only [act] at ha
  cases hjm : s.jm with
  | pure a => rw [hjm] at ha; simp [stepProg] at ha
  | raise e => rw [hjm] at ha; simp [stepProg] at ha
  | op o k =>
    rw [hjm] at ha hs hallow
    simp only [stepProg] at ha
    cases ha
    simp only at hp'
    obtain ⟨n, ps, rfl, hps⟩ : ∃ n ps, o = .updatePip n ps ∧
        (exec o s.w).2.pips = updPips n ps s.w.pips := by
      rcases exec_pips o s.w with h | ⟨q, rfl, h⟩ | h
      · rw [h] at hp'
        exact absurd hj (hfree p' hp' rfl)
      · rcases hallow.1 with h | h <;> cases h
      · exact h
    rw [hps] at hp'
    simp only [updPips, List.mem_map] at hp'
    obtain ⟨q, hq, hqp⟩ := hp'
    split at hqp
    · next hqn =>
      have hjps : PipParam.jobid (some j) ∈ ps := by
        rcases hallow.1 with h | ⟨j', rfl⟩
        · cases h
        · subst hqp
          simp [applyPip, PipParam.apply] at hj
          simp [hj]
      obtain ⟨job₁, job₂, h1, h2, h3, h4, h5, h6, h7⟩ := hs.1.1 n ps j rfl hjps
      have hn : p'.name = n := by rw [← hqp, applyPip_name, hqn]
      rw [hn]
      -- both rows are the row of the job
      have hrow : ∀ job : Job, job.id = j → WasJob h job →
          ∃ job' ∈ s.w.jobs, job'.id = j ∧ job'.payload = job.payload := by
        rintro job hid ⟨x, hx, hxj⟩
        obtain ⟨s₁, hr₁, hw₁, hst₁⟩ := hd.past x hx
        rw [← hw₁] at hxj
        obtain ⟨job', hm', hid', hp', _⟩ := C03_records_immutable hr₁ hst₁ job hxj
        exact ⟨job', hm', hid'.trans hid, hp'⟩
      obtain ⟨ja, ha1, ha2, ha3⟩ := hrow job₁ h1 h3
      obtain ⟨jb, hb1, hb2, hb3⟩ := hrow job₂ h2 h4
      have hwf := reachable_wf hr
      have : ja = jb := by
        have e1 := hwf.job?_mem ha1
        have e2 := hwf.job?_mem hb1
        rw [ha2] at e1
        rw [hb2, e1] at e2
        exact Option.some.inj e2
      subst this
      refine ⟨ja, ha1, ha2, by rw [hb3]; exact h7, by rw [ha3]; exact h6, ?_⟩
      exact h3.mono (fun w hw => ⟨job₁, hw, h1, h5⟩)
    · next hqn =>
      subst hqp
      exact absurd hj (hfree q hq rfl)

/-- Such a step happens. -/
example : ∃ s h s', During "Jobs" dRun s h ∧ act "Jobs" s .jmStep = some s' ∧
    (s.w.pip? "p").map (·.jobid) = some none ∧ (s'.w.pip? "p").map (·.jobid) = some (some 1) := by
  have own : ∀ (n : Nat) (s : Sys) (h : Past), During "Jobs" dRun s h →
      ∀ s', acts "Jobs" s (jm n) = some s' → ∃ h', During "Jobs" dRun s' h' := by
    intro n
    induction n with
    | zero => intro s h hd s' hs; cases hs; exact ⟨h, hd⟩
    | succ n ih =>
      intro s h hd s' hs
      simp only [jm, List.replicate_succ, acts] at hs
      split at hs
      · next s1 h1 =>
        cases hjm : s.jm with
        | pure a => simp [act, hjm, stepProg] at h1
        | raise e => simp [act, hjm, stepProg] at h1
        | op o k => exact ih s1 _ (.own hd hjm h1) s' hs
      · cases hs
  have h : (acts "Jobs" ((act "Jobs" sSetup (.jmStart dRun)).getD sSetup) (jm 15)).isSome = true := rfl
  obtain ⟨s, hs⟩ := Option.isSome_iff_exists.mp h
  obtain ⟨h', hd⟩ := own 15 _ [] (.start sSetup_reachable rfl) s hs
  refine ⟨s, h', ((act "Jobs" s .jmStep).getD s), hd, ?_, ?_, ?_⟩ <;> (cases hs; rfl)

end Props

end Tomato
