import Verif.Props.JobProc

/-!
# Where the files of a job are, and what they contain: C93 - C96
-/

namespace Tomato.Props

open Tomato.Full

/-! ## Paths -/

theorem splitSlash_join (a b : List Char) :
    splitSlash (a ++ '/' :: b) = splitSlash a ++ splitSlash b := by
  induction a with
  | nil => simp [splitSlash]
  | cons c a ih =>
    simp only [List.cons_append, splitSlash]
    by_cases h : c = '/'
    · simp [h, ih]
    · rw [if_neg h, if_neg h, ih]
      have : splitSlash a ≠ [] := by
        cases a with
        | nil => simp [splitSlash]
        | cons d a =>
          simp only [splitSlash]; split
          · simp
          · split <;> simp
      cases hs : splitSlash a with
      | nil => exact absurd hs this
      | cons x xs => simp

theorem parts_join (a b : List Char) : parts (a ++ '/' :: b) = parts a ++ parts b := by
  simp [parts, splitSlash_join]

theorem splitSlash_plain {a : List Char} (h : '/' ∉ a) : splitSlash a = [a] := by
  induction a with
  | nil => rfl
  | cons c a ih =>
    simp only [List.mem_cons, not_or] at h
    simp only [splitSlash]
    rw [if_neg (fun e => h.1 e.symm), ih h.2]

theorem parts_plain {a : String} (h : '/' ∉ a.toList) (h1 : a ≠ "") (h2 : a ≠ ".") :
    parts a.toList = [a] := by
  have e1 : a.toList ≠ [] := fun e => h1 (by rw [← String.ofList_toList (s := a), e])
  have e2 : a.toList ≠ ['.'] := fun e => h2 (by rw [← String.ofList_toList (s := a), e])
  simp [parts, splitSlash_plain h, e1, e2]

/-- The result file is in the output folder. -/
theorem resolve_join (cwd : FsPath) {o n : String} (ho : o ≠ "") (h : '/' ∉ n.toList) (h1 : n ≠ "")
    (h2 : n ≠ ".") : resolve cwd (o ++ "/" ++ n) = resolve cwd o ++ [n] := by
  have hl : (o ++ "/" ++ n).toList = o.toList ++ '/' :: n.toList := by simp [String.toList_append]
  have e1 : o.toList ≠ [] := fun e => ho (by rw [← String.ofList_toList (s := o), e])
  have hhead : (o.toList ++ '/' :: n.toList).head? = o.toList.head? := by
    cases hh : o.toList with
    | nil => exact absurd hh e1
    | cons c l => rfl
  unfold resolve
  rw [hl, hhead, parts_join, parts_plain h h1 h2]
  split <;> simp

/-! ## What job processes do to files, in all executions -/

/-- A job process reads the `jobdata.json` written for it (job.py:269-285): the payload of the job and
the folder of the job; its working directory is that of the daemon. -/
def FromFileF (st : String) (cwd : FsPath) (s : FSys) (c : FCmd) : Prop :=
  ∀ j i pl pip path cwd' rs info rc m h, c = .job j i pl pip path cwd' rs info rc m h →
    (s.w.job? j).map (·.payload) = some pl ∧ path = jobFolder st j ∧ cwd' = cwd

/-- Executions in which all job processes read the `jobdata.json` written for them, and run in the
working directory `cwd` of the daemon. -/
inductive FStepsFile (st : String) (cwd : FsPath) : FSys → FSys → Prop
  | refl (s : FSys) : FStepsFile st cwd s s
  | tail {s s' s'' : FSys} {a : FAct} : FStepsFile st cwd s s' → fact st s' a = some s'' →
      (∀ c, a = .spawn c → FromFileF st cwd s' c) → FStepsFile st cwd s s''

theorem FStepsFile.steps {st : String} {cwd : FsPath} {s s' : FSys} (h : FStepsFile st cwd s s') :
    FSteps st s s' := by
  induction h with
  | refl => exact .refl _
  | tail _ ha _ ih => exact .tail ih ⟨_, ha⟩

/-- Such an execution corresponds to one of the system without files. -/
theorem refines_file {st : String} {cwd : FsPath} {t : Tree} {s : FSys}
    (h : FStepsFile st cwd { w := {}, t := t } s) :
    ∃ b, StepsFile st Sys.init b ∧ Rel s b := by
  generalize h0 : ({ w := {}, t := t } : FSys) = s0 at h
  induction h with
  | refl =>
    subst h0
    exact ⟨Sys.init, .refl _, ⟨rfl, rfl, rfl, rfl, by intro i p q h; simp at h⟩⟩
  | @tail s1 s2 a h1 ha hf ih =>
    obtain ⟨b, hb, hr⟩ := ih
    obtain ⟨b', hb', hr'⟩ := refines_act hr ha
    refine ⟨b', ?_, hr'⟩
    rcases hb' with rfl | ⟨a', ha', hsp⟩
    · exact hb
    · refine .tail hb ha' ?_
      rintro c rfl j i pl pip path m hm hc
      obtain ⟨fc, rfl, rfl⟩ := hsp c rfl
      cases fc with
      | cmd c' hc' =>
        simp only [FCmd.base] at hc
        rw [hc] at hc'; cases hc'
      | job j' i' pl' pip' path' cwd' rs info rc m' hm' =>
        simp only [FCmd.base, Cmd.tomatoJob.injEq] at hc
        obtain ⟨rfl, rfl, rfl, rfl, rfl, rfl⟩ := hc
        have := hf _ rfl _ _ _ _ _ _ _ _ _ _ _ rfl
        rw [hr.w]
        exact ⟨this.1, this.2.1⟩

/-- All operations of the program satisfy `A`, if all answers come from worlds satisfying `I`. -/
def AbidesF {α : Type} (I : World → Prop) (A : FOp → Prop) (Q : α → Prop) : PF α → Prop
  | .pure a => Q a
  | .raise _ => True
  | .op o k => A o ∧ ∀ w t, I w → AbidesF I A Q (k (fExec o (w, t)).1)

section
variable {I : World → Prop} {A : FOp → Prop}

theorem abidesF_bind {α β : Type} {Q : α → Prop} {Q' : β → Prop} {p : PF α} {f : α → PF β}
    (hp : AbidesF I A Q p) (hf : ∀ a, Q a → AbidesF I A Q' (f a)) :
    AbidesF I A Q' (Prog.bind p f) := by
  induction p with
  | pure a => exact hf a hp
  | raise e => trivial
  | op o k ih => exact ⟨hp.1, fun w t hw => ih _ (hp.2 w t hw)⟩

theorem abidesF_lift {α : Type} {A' : Op → Prop} {Q : α → Prop} {p : P α} (h : Abides I A' Q p)
    (hA : ∀ o, A' o → A (.db o)) : AbidesF I A Q (liftDb p) := by
  induction p with
  | pure a => exact h
  | raise e => trivial
  | op o k ih => exact ⟨hA o h.1, fun w t hw => ih _ (h.2 w hw)⟩

theorem abidesF_fs {α : Type} {A' : FsOp → Prop} {p : Prog FS α} (h : Prog.Only (S := FS) A' p)
    (hA : ∀ o, A' o → A (.fs o)) : AbidesF I A (fun _ => True) (liftFs p) := by
  induction p with
  | pure a => trivial
  | raise e => trivial
  | op o k ih => exact ⟨hA o h.1, fun w t hw => ih _ (h.2 _)⟩

theorem abidesF_call {o : FOp} (h : A o) :
    AbidesF I A (fun _ => True) (Prog.call (S := JF) o) := by
  refine ⟨h, fun w t _ => ?_⟩
  cases (fExec o (w, t)).1 <;> trivial

end

variable {K : Nat → Prop} {Pay : Nat → Payload} {st : String} {cwd : FsPath}

/-- What job processes are allowed to do: make the folders on the way to the output folder of a job,
write the result file of a job, write its RO-crate beside it.  `K`: the ids of the jobs. -/
def FileOp (K : Nat → Prop) (Pay : Nat → Payload) (st : String) (cwd : FsPath) : FOp → Prop
  | .db o => PathOp Pay st o
  | .fs (.mkdir p) => ∃ j o, K j ∧ (Pay j).outPath = some o ∧ p <+: resolve cwd o
  | .fs (.crate _ _ d z) => ∃ j, K j ∧ d = resolve cwd (resPath (Pay j) j) ∧ z = cratePath d
  | .fs _ => True
  | .merge id jp path c => c = cwd ∧ K id ∧ (∀ x, jp = some x → x = jobFolder st id) ∧
      ∀ x, path = some x → x = resPath (Pay id) id

theorem only_makedirs (A : FsOp → Prop) (p : FsPath) (hex : ∀ q, A (.exists q))
    (hmk : ∀ q, q <+: p → A (.mkdir q)) (r : List String) (hr : r.reverse <+: p) :
    Prog.Only (S := FS) A (makedirsRev r) := by
  induction r with
  | nil =>
    refine ⟨hmk _ hr, fun x => ?_⟩
    cases x <;> trivial
  | cons c head ih =>
    have hhead : head.reverse <+: p := by
      rw [List.reverse_cons] at hr
      exact (List.prefix_append _ _).trans hr
    have hlast : Prog.Only (S := FS) A (Ask.mkdir (c :: head).reverse) := by
      refine ⟨hmk _ hr, fun x => ?_⟩
      cases x <;> trivial
    unfold makedirsRev
    refine Prog.only_bind ⟨hex _, fun x => by cases x <;> trivial⟩ (fun ex => ?_)
    split
    · refine Prog.only_bind (Prog.only_tryExcept (ih hhead) ?_) (fun _ => hlast)
      intro e q hq
      split at hq
      · cases hq; trivial
      · cases hq
    · exact hlast

theorem only_prepareOut (A : FsOp → Prop) (p : FsPath) (hex : ∀ q, A (.exists q))
    (hd : ∀ q, A (.isDir q)) (hmk : ∀ q, q <+: p → A (.mkdir q)) :
    Prog.Only (S := FS) A (prepareOut p) := by
  unfold prepareOut
  refine Prog.only_bind ⟨hex _, fun x => by cases x <;> trivial⟩ (fun ex => ?_)
  split
  · refine Prog.only_bind ⟨hd _, fun x => by cases x <;> trivial⟩ (fun d => ?_)
    unfold Prog.assert
    split <;> trivial
  · exact only_makedirs A p hex hmk _ (by rw [List.reverse_reverse]; exact List.prefix_rfl)

theorem abidesF_job (j i : Nat) (pip : String) (repos : List String) (info : CrateInfo) (rc : Bool)
    (m : P (Option Nat)) (hm : Prog.Only (S := DB) QuietOp m) (hK : K j) :
    AbidesF (PathInv Pay st) (FileOp K Pay st cwd) (fun _ => True)
      (tomatoJobF j i (Pay j) pip (jobFolder st j) cwd repos info rc m) := by
  have hdb : ∀ o, PathOp Pay st o → FileOp K Pay st cwd (.db o) := fun _ h => h
  unfold tomatoJobF
  refine abidesF_bind (Q := fun _ => True) (abidesF_lift ?_ hdb) (fun _ _ => ?_)
  · unfold jobConnect
    refine abides_bind (abides_of_only (Do.only_now.mpr trivial)) (fun t _ => ?_)
    exact abides_bind (abides_updateJobId _ _ (pathOp_status _ (fun _ => ⟨rfl, rfl, rfl⟩)))
      (fun _ _ => trivial)
  · cases ho : (Pay j).outPath with
    | none => trivial
    | some o =>
      simp only
      refine abidesF_bind (abidesF_fs (only_prepareOut (fun o => FileOp K Pay st cwd (.fs o)) _
        (fun _ => trivial) (fun _ => trivial) ?_) (fun _ h => h)) (fun _ _ => ?_)
      · intro q hq
        exact ⟨j, o, hK, ho, hq⟩
      refine abidesF_bind (Q := fun job => job.id = j ∧ OwnPaths Pay st job) (abidesF_lift ?_ hdb)
        (fun job hjob => ?_)
      · unfold jobPaths
        refine abides_updateJobId _ _ ?_
        rintro j' rfl _
        refine ⟨?_, ?_, ?_⟩ <;> rw [applyJob_id]
        · rintro f hf; exact (Option.some.inj hf).symm
        · rintro f hf; exact (Option.some.inj hf).symm
        · rintro f hf; exact (Option.some.inj hf).symm
      · refine abidesF_bind (abidesF_lift (abides_of_only (hm.mono pathOp_quiet)) hdb)
          (fun ret _ => ?_)
        unfold finishF
        refine abidesF_bind (abidesF_lift (abides_of_only (Do.only_now.mpr trivial)) hdb)
          (fun t _ => ?_)
        simp only
        have hend : AbidesF (PathInv Pay st) (FileOp K Pay st cwd) (fun _ => True)
            (Prog.bind (liftDb (updateJobId job.id
              [.status (if ret.isNone then .c else .ce), .completedAt (some t)])) (fun job =>
                Prog.bind (liftDb (updatePip pip [.jobid none, .ready job.payload.unlockWhenDone]))
                  (fun _ => Prog.pure ()))) := by
          refine abidesF_bind (abidesF_lift (abides_updateJobId _ _
            (pathOp_status _ (fun _ => ⟨rfl, rfl, rfl⟩))) hdb) (fun _ _ => ?_)
          exact abidesF_bind (abidesF_lift (abides_of_only (only_updatePip pathOp_quiet _ _ trivial))
            hdb) (fun _ _ => trivial)
        refine abidesF_bind (Q := fun _ => ∃ f, job.respath = some f) ?_ (fun _ hres => ?_)
        · refine ⟨⟨rfl, hjob.1 ▸ hK, hjob.2.folder, fun x hx => hjob.2.res x hx⟩, fun w t _ => ?_⟩
          cases hr : job.respath with
          | none =>
            simp only [fExec]
            cases hx : exec (.merge job.id job.jobpath none) w with
            | mk r w' => cases r <;> trivial
          | some f => cases (fExec (.merge job.id job.jobpath (some f) cwd) (w, t)).1 <;> first | trivial | exact ⟨f, rfl⟩
        · split
          · refine abidesF_bind (abidesF_call ?_) (fun _ _ => hend)
            obtain ⟨f, hf⟩ := hres
            refine ⟨j, hK, ?_, rfl⟩
            rw [hf, ← hjob.1]
            exact congrArg (resolve cwd) (hjob.2.res f hf)
          · exact hend

/-- Job processes are started with the payload given by `Pay`, the folder of the job, and the working
directory of the daemon. -/
def OwnF (K : Nat → Prop) (Pay : Nat → Payload) (st : String) (cwd : FsPath) (c : FCmd) : Prop :=
  ∀ j i pl pip path cwd' rs info rc m h, c = .job j i pl pip path cwd' rs info rc m h →
    K j ∧ pl = Pay j ∧ path = jobFolder st j ∧ cwd' = cwd

theorem abidesF_cmd (c : FCmd) (hc : OwnF K Pay st cwd c) :
    AbidesF (PathInv Pay st) (FileOp K Pay st cwd) (fun _ => True) c.prog := by
  cases c with
  | cmd c h =>
    refine abidesF_lift (abides_cmd c ?_) (fun _ h => h)
    rintro j i pl pip path m hm rfl
    cases h
  | job j i pl pip path cwd' rs info rc m hm =>
    obtain ⟨hK, rfl, rfl, rfl⟩ := hc _ _ _ _ _ _ _ _ _ _ _ rfl
    exact abidesF_job _ _ _ _ _ _ _ hm hK

/-- All programs keep to the rules. -/
structure FAbides (K : Nat → Prop) (Pay : Nat → Payload) (st : String) (cwd : FsPath) (s : FSys) : Prop where
  inv : PathInv Pay st s.w
  jm : Abides (PathInv Pay st) (PathOp Pay st) (fun _ => True) s.jm
  others : ∀ p ∈ s.others, AbidesF (PathInv Pay st) (FileOp K Pay st cwd) (fun _ => True) p

theorem pathInv_fExec (o : FOp) (w : World) (t : Tree) (h : PathInv Pay st w)
    (ho : FileOp K Pay st cwd o) : PathInv Pay st (fExec o (w, t)).2.1 := by
  cases o with
  | db o => exact pathInv_exec o w h ho
  | fs o => exact h
  | merge id jp path c =>
    have h1 := pathInv_exec (.merge id jp path) w h ⟨ho.2.2.1, fun x hx => .inl (ho.2.2.2 x hx)⟩
    simp only [fExec]
    cases hx : exec (.merge id jp path) w with
    | mk r w' =>
      rw [hx] at h1
      cases r with
      | error e => exact h
      | ok _ =>
        cases path with
        | none => exact h
        | some f =>
          dsimp only
          cases writable t (resolve c f) with
          | error e => exact h
          | ok _ => exact h1

theorem fAbides_act {s s' : FSys} {a : FAct} (h0 : FAbides K Pay st cwd s)
    (h : fact st s a = some s') (ha : ∀ c, a = .spawn c → OwnF K Pay st cwd c) :
    FAbides K Pay st cwd s' := by
  obtain ⟨hi, hj, ho⟩ := h0
  cases a with
  | jmStart d =>
    simp only [fact] at h
    split at h
    · next hd => cases h; exact ⟨hi, abides_jobManagerPass d, ho⟩
    · cases h
  | jmStep =>
    simp only [fact] at h
    split at h
    · next p w hp =>
      unfold stepProg at hp
      split at hp
      · next o k hk =>
        cases hp; cases h
        rw [hk] at hj
        exact ⟨pathInv_exec o _ hi hj.1, hj.2 _ hi, ho⟩
      · cases hp
    · cases h
  | jmKill => cases h; exact ⟨hi, trivial, ho⟩
  | spawn c =>
    have key : ∀ p ∈ s.others ++ [c.prog], AbidesF (PathInv Pay st) (FileOp K Pay st cwd)
        (fun _ => True) p := by
      intro p hp
      rcases List.mem_append.mp hp with hp | hp
      · exact ho p hp
      · rw [List.mem_singleton.mp hp]; exact abidesF_cmd c (ha c rfl)
    simp only [fact] at h
    split at h
    · cases h; exact ⟨hi, hj, key⟩
    · split at h
      · cases h; exact ⟨hi, hj, key⟩
      · cases h
  | step i =>
    simp only [fact] at h
    split at h
    · next o k hp =>
      cases h
      have hmem := ho _ (List.mem_of_getElem? hp)
      refine ⟨pathInv_fExec o _ _ hi hmem.1, hj, fun q hq => ?_⟩
      rcases mem_set_of hq with hq | rfl
      · exact ho q hq
      · exact hmem.2 _ _ hi
    · cases h
  | kill i =>
    cases h
    refine ⟨hi, hj, fun q hq => ?_⟩
    rcases mem_set_of hq with hq | rfl
    · exact ho q hq
    · trivial
  | env e =>
    cases h
    refine ⟨?_, hj, ho⟩
    cases e <;> exact ⟨hi.rows, hi.files⟩
  | files t => cases h; exact ⟨hi, hj, ho⟩

/-- Starting from any files, all programs keep to the rules, if `Pay` are the payloads of the jobs. -/
theorem fAbides_file {t : Tree} {s : FSys} (h : FStepsFile st cwd { w := {}, t := t } s)
    (hp : ∀ j ∈ s.w.jobs, Pay j.id = j.payload ∧ K j.id) : FAbides K Pay st cwd s := by
  generalize h0 : ({ w := {}, t := t } : FSys) = s0 at h
  induction h with
  | refl =>
    subst h0
    refine ⟨⟨fun j hj => ?_, fun x hx => ?_⟩, trivial, fun p hp => ?_⟩
    · cases hj
    · cases hx
    · cases hp
  | @tail s1 s2 a h1 ha hf ih =>
    have hr : FReachable st s1 := ⟨t, by rw [h0]; exact h1.steps⟩
    have hp1 : ∀ j ∈ s1.w.jobs, Pay j.id = j.payload ∧ K j.id := by
      intro j hj
      obtain ⟨j', hj', e1, e2, -⟩ := (C91_consistent hr ⟨a, ha⟩).2.2 j hj
      rw [← e1, (hp j' hj').1, e2]
      exact ⟨rfl, (hp j' hj').2⟩
    refine fAbides_act (ih hp1) ha ?_
    intro c hc j i pl pip path cwd' rs info rc m hm hcc
    obtain ⟨hpl, hpath, hcwd⟩ := hf c hc j i pl pip path cwd' rs info rc m hm hcc
    suffices hh : K j ∧ pl = Pay j from ⟨hh.1, hh.2, hpath, hcwd⟩
    cases hrow : s1.w.job? j with
    | none => rw [hrow] at hpl; cases hpl
    | some row =>
      rw [hrow] at hpl
      have := hp1 row (job?_some hrow).2
      rw [(job?_some hrow).1] at this
      exact ⟨this.2, (Option.some.inj hpl).symm.trans this.1.symm⟩

theorem known_rows {s : FSys} (hr : FReachable st s) :
    ∃ Pay : Nat → Payload, ∀ j ∈ s.w.jobs, Pay j.id = j.payload ∧ j.id ∈ s.w.jobs.map (·.id) := by
  obtain ⟨b, hb, hrel⟩ := refines hr
  refine ⟨payOf b, fun j hj => ⟨?_, List.mem_map_of_mem hj⟩⟩
  rw [← hrel.w] at hj
  exact payOf_row (reachable_wf hb) hj

/-! ## C93 -/

/-- The folder the user asked for, in the directory `dir`: that folder unless the payload names
another one. -/
def wantedFolder (dir : String) (p : Payload) : FsPath :=
  match p.outPath with
  | none => parts dir.toList
  | some o => resolve (parts dir.toList) o

/-- Without an output folder, or with an absolute one, it does not matter where the daemon was
started. -/
def AnchoredOut (p : Payload) : Prop := ∀ o, p.outPath = some o → o.toList.head? = some '/'

theorem outPath_fillPaths (p : Payload) (dir : String) :
    (fillPaths p dir).outPath = some (p.outPath.getD dir) ∧
      (fillPaths p dir).outPrefix = p.outPrefix := by
  unfold fillPaths
  cases h : p.outPath <;> cases h2 : p.snapshot <;> (try rename_i x; cases x) <;> simp [h, h2]

theorem resName_ne (p : Payload) (id : Nat) : resName p id ≠ "" ∧ resName p id ≠ "." := by
  have : 3 ≤ (resName p id).length := by
    unfold resName
    have h : (".nc" : String).length = 3 := rfl
    split <;> simp only [String.length_append, h] <;> omega
  constructor <;> intro h <;> rw [h] at this <;> revert this <;> decide

/-- The result file of a stored job is in the folder its user asked for, whatever the working
directory of the daemon. -/
theorem C93_place (p : Payload) (dir : String) (id : Nat) (cwd : FsPath) (ha : AnchoredOut p)
    (hdir : dir.toList.head? = some '/') (hpre : ∀ x, p.outPrefix = some x → '/' ∉ x.toList) :
    resolve cwd (resPath (fillPaths p dir) id) =
      wantedFolder dir p ++ [(p.outPrefix.getD ("results." ++ id.repr)) ++ ".nc"] := by
  have hn : '/' ∉ (resName (fillPaths p dir) id).toList := by
    have h1 : '/' ∉ "results.".toList := by decide
    have h2 : '/' ∉ ".nc".toList := by decide
    unfold resName
    rw [(outPath_fillPaths p dir).2]
    split
    · simp only [String.toList_append, List.mem_append, not_or]
      exact ⟨⟨h1, digits_plain id⟩, h2⟩
    · next x hx =>
      simp only [String.toList_append, List.mem_append, not_or]
      exact ⟨hpre x hx, h2⟩
  have hname : resName (fillPaths p dir) id = (p.outPrefix.getD ("results." ++ id.repr)) ++ ".nc" := by
    unfold resName
    rw [(outPath_fillPaths p dir).2]
    cases p.outPrefix <;> rfl
  have hne : ∀ o : String, o.toList.head? = some '/' → o ≠ "" := by
    rintro o h rfl; cases h
  rw [resPath_eq, (outPath_fillPaths p dir).1, Option.getD_some]
  have hout : (p.outPath.getD dir).toList.head? = some '/' := by
    cases h : p.outPath with
    | none => exact hdir
    | some o => exact ha o h
  rw [resolve_join cwd (hne _ hout) hn (resName_ne _ _).1 (resName_ne _ _).2, hname]
  congr 1
  unfold wantedFolder
  cases h : p.outPath with
  | none => rw [h] at hout; simp only [Option.getD_none] at *; rw [resolve, if_pos hout]
  | some o =>
    rw [h] at hout; simp only [Option.getD_some] at *
    rw [resolve, if_pos hout, resolve, if_pos hout]

/-- How a job process may change the files: it makes missing folders on the way to the output
folder of a job; it writes the data of a job to the result file of that job; it packs what it finds
in the result file of a job into the archive beside it. -/
inductive FileChange (cwd : FsPath) (jobs : List Job) (t t' : Tree) (q : FsPath) : Prop
  | folder (j : Job) (o : String) (hj : j ∈ jobs) (ho : j.payload.outPath = some o)
      (hq : q <+: resolve cwd o) (h0 : t q = none) (h1 : t' q = some .dir)
  | data (j : Job) (hj : j ∈ jobs) (hq : q = resolve cwd (resPath j.payload j.id))
      (h1 : t' q = some (.nc j.id))
  | crate (j : Job) (hj : j ∈ jobs) (hq : q = cratePath (resolve cwd (resPath j.payload j.id)))
      (info : CrateInfo) (sample : String) (n : Node)
      (h0 : t (resolve cwd (resPath j.payload j.id)) = some n)
      (h1 : t' q = some (.zip info sample n))

theorem put_ne {t : Tree} {p q : FsPath} {n : Node} (h : t.put p n q ≠ t q) :
    q = p ∧ t.put p n q = some n := by
  unfold Tree.put at *
  split at h
  · next e => exact ⟨e, by rw [if_pos e]⟩
  · exact absurd rfl h

/-- In all executions, job processes only change files in these ways. -/
theorem C93_only {t0 : Tree} {s s' : FSys} (h : FStepsFile st cwd { w := {}, t := t0 } s) {i : Nat}
    (hst : fact st s (.step i) = some s') (q : FsPath) (hq : s'.t q ≠ s.t q) :
    FileChange cwd s.w.jobs s.t s'.t q := by
  obtain ⟨Pay, hP⟩ := known_rows ⟨t0, h.steps⟩
  have hab := fAbides_file (K := fun i => i ∈ s.w.jobs.map (·.id)) h hP
  have row : ∀ i, i ∈ s.w.jobs.map (·.id) → ∃ j ∈ s.w.jobs, j.id = i ∧ Pay i = j.payload := by
    intro i hi
    obtain ⟨j, hj, rfl⟩ := List.mem_map.mp hi
    exact ⟨j, hj, rfl, (hP j hj).1⟩
  simp only [fact] at hst
  split at hst
  · next o k hp =>
    cases hst
    have hA := (hab.others _ (List.mem_of_getElem? hp)).1
    dsimp only at hq ⊢
    cases o with
    | db o => exact absurd rfl hq
    | fs o =>
      cases o with
      | «exists» p => exact absurd rfl hq
      | isDir p => exact absurd rfl hq
      | mkdir p =>
        obtain ⟨j, o, hK, ho, hpre⟩ := hA
        obtain ⟨r, hr, -, hpay⟩ := row j hK
        rw [hpay] at ho
        simp only [fExec, fsExec] at hq ⊢
        split at hq
        · exact absurd rfl hq
        · next hnone =>
          split at hq
          · next hd =>
            obtain ⟨rfl, hv⟩ := put_ne hq
            exact .folder r o hr ho hpre (by simpa using hnone) (by rw [if_neg hnone]; exact hv)
          · exact absurd rfl hq
          · exact absurd rfl hq
      | crate inf sm d z =>
        obtain ⟨j, hK, hd, rfl⟩ := hA
        obtain ⟨r, hr, hid, hpay⟩ := row j hK
        rw [hpay, ← hid] at hd
        simp only [fExec, fsExec] at hq ⊢
        cases hn : s.t d with
        | none => rw [hn] at hq; exact absurd rfl hq
        | some n =>
          simp only [hn] at hq ⊢
          cases hw : writable s.t (cratePath d) with
          | error e => rw [hw] at hq; exact absurd rfl hq
          | ok _ =>
            simp only [hw] at hq ⊢
            obtain ⟨rfl, hv⟩ := put_ne hq
            subst hd
            exact .crate r hr rfl inf sm n hn hv
    | merge id jp path c =>
      obtain ⟨rfl, hK, -, hres⟩ := hA
      obtain ⟨r, hr, hid, hpay⟩ := row id hK
      simp only [fExec] at hq ⊢
      cases hx : exec (.merge id jp path) s.w with
      | mk ans w' =>
        cases ans with
        | error e => simp only [hx] at hq; exact absurd rfl hq
        | ok u =>
          cases path with
          | none => simp only [hx] at hq; exact absurd rfl hq
          | some f =>
            simp only [hx] at hq ⊢
            cases hw : writable s.t (resolve c f) with
            | error e => rw [hw] at hq; exact absurd rfl hq
            | ok _ =>
              simp only [hw] at hq ⊢
              obtain ⟨rfl, hv⟩ := put_ne hq
              refine .data r hr ?_ (by rw [hid]; exact hv)
              rw [hres f rfl, hpay, hid]
  · cases hst

/-- **C93**: in all executions, the data of a job is only ever written to the result file in the
folder its user asked for.  What is missing: the output folder given in the payload is relative. -/
theorem C93_partial {t0 : Tree} {s s' : FSys} (h : FStepsFile st cwd { w := {}, t := t0 } s) {i : Nat}
    (hst : fact st s (.step i) = some s') {q : FsPath} {j : Job} (hj : j ∈ s.w.jobs)
    (hq : s'.t q ≠ s.t q) (hd : s'.t q = some (.nc j.id)) {p : Payload} {dir : String}
    (hp : j.payload = fillPaths p dir) (ha : AnchoredOut p) (hdir : dir.toList.head? = some '/')
    (hpre : ∀ x, p.outPrefix = some x → '/' ∉ x.toList) :
    q = wantedFolder dir p ++ [(p.outPrefix.getD ("results." ++ j.id.repr)) ++ ".nc"] := by
  cases C93_only h hst q hq with
  | folder _ _ _ _ _ _ h1 => rw [h1] at hd; cases hd
  | crate _ _ _ _ _ _ _ h1 => rw [h1] at hd; cases hd
  | data j' hj' hq' h1 =>
    rw [h1] at hd
    have hid : j'.id = j.id := by injection hd with hd; injection hd
    obtain ⟨b, hb, hrel⟩ := refines ⟨t0, h.steps⟩
    have hwf := reachable_wf hb
    rw [← hrel.w] at hj hj'
    have h1 := hwf.job?_mem hj
    have h2 := hwf.job?_mem hj'
    rw [hid, h1] at h2
    cases h2
    rw [hq', hp]
    exact C93_place p dir j.id cwd ha hdir hpre

/-! ### Witness -/

/-- The check of `FromFileF`. -/
def fromFileB (st : String) (cwd : FsPath) (s : FSys) : FAct → Bool
  | .spawn (.job j _ pl _ path cwd' _ _ _ _ _) =>
      decide ((s.w.job? j).map (·.payload) = some pl ∧ path = jobFolder st j ∧ cwd' = cwd)
  | _ => true

/-- Execute a list of actions, checking `FromFileF`. -/
def fileFacts (st : String) (cwd : FsPath) : FSys → List FAct → Option FSys
  | s, [] => some s
  | s, a :: as =>
      if fromFileB st cwd s a then
        match fact st s a with
        | some s' => fileFacts st cwd s' as
        | none => none
      else none

theorem stepsFile_of_facts {s0 s s' : FSys} {as : List FAct} (h0 : FStepsFile st cwd s0 s)
    (h : fileFacts st cwd s as = some s') : FStepsFile st cwd s0 s' := by
  induction as generalizing s with
  | nil => cases h; exact h0
  | cons a as ih =>
    simp only [fileFacts] at h
    split at h
    · next hb =>
      split at h
      · next s1 h1 =>
        refine ih (.tail h0 h1 ?_) h
        rintro c rfl j i pl pip path cwd' rs info rc m hm rfl
        simpa [fromFileB] using hb
      · cases h
    · cases h

/-- The home of a user, and the folder in which the daemon was started. -/
def tHome : Tree := fun p =>
  if p ∈ [[], ["home"], ["home", "u"], ["srv"]] then some .dir else none

/-- The state after a list of actions; the daemon runs in `/srv`. -/
def srvAfter (as : List FAct) : FSys :=
  (fileFacts "Jobs" ["srv"] { w := {}, t := tHome } as).getD { w := {}, t := tHome }

theorem srvAfter_steps {as : List FAct}
    (h : (fileFacts "Jobs" ["srv"] { w := {}, t := tHome } as).isSome = true) :
    FStepsFile "Jobs" ["srv"] { w := {}, t := tHome } (srvAfter as) := by
  obtain ⟨s, hs⟩ := Option.isSome_iff_exists.mp h
  unfold srvAfter
  rw [hs]
  exact stepsFile_of_facts (.refl _) hs

/-- A payload with a relative output folder, as in tests/common/counter_output_path.yml. -/
def plRel : Payload := { plS "s" with outPath := some "newfolder" }

/-- The first user submits `pl` in `/home/u`; the process of the job runs alone. -/
def oneJob (pl : Payload) (repos : List String) (rocrate : Bool) : List FAct :=
  twoJobs pl (plS "t") "/home/u" ++
  [.spawn (.job 1 100 (fillPaths pl "/home/u") "p" "Jobs/1" ["srv"] repos noInfo rocrate (.pure none)
    trivial),
   .env (.procs [⟨100, 1, false⟩])]

/-- **C93** is false: the user is in `/home/u` and asks for the folder `newfolder`.  The job ends
normally, and the results are in `/srv/newfolder`. -/
theorem C93_refuted : ∃ s s',
    FStepsFile "Jobs" ["srv"] { w := {}, t := tHome } s ∧ fact "Jobs" s (.step 8) = some s' ∧
    (∃ j ∈ s.w.jobs, j.id = 1 ∧ j.payload = fillPaths plRel "/home/u") ∧
    s.t ["srv", "newfolder", "results.1.nc"] = none ∧
    s'.t ["srv", "newfolder", "results.1.nc"] = some (.nc 1) ∧
    wantedFolder "/home/u" plRel = ["home", "u", "newfolder"] ∧
    s'.t ["home", "u", "newfolder"] = none := by
  refine ⟨srvAfter (oneJob plRel [] false ++ fRun 8 9), _, srvAfter_steps rfl, rfl, ?_, rfl, rfl, rfl, rfl⟩
  have h : ((srvAfter (oneJob plRel [] false ++ fRun 8 9)).w.job? 1).map (·.payload) =
      some (fillPaths plRel "/home/u") := rfl
  obtain ⟨j, hj, hp⟩ := Option.map_eq_some_iff.mp h
  exact ⟨j, (job?_some hj).2, (job?_some hj).1, hp⟩

/-- `C93_partial` speaks about jobs without an output folder, with an absolute one, with a prefix. -/
example : ∀ p ∈ [plS "s", { plS "s" with outPath := some "/data/x", outPrefix := some "my" }],
    ∃ s s' j, FStepsFile "Jobs" ["srv"] { w := {}, t := tHome } s ∧
      (∃ i, fact "Jobs" s (.step i) = some s') ∧ j ∈ s.w.jobs ∧
      j.payload = fillPaths p "/home/u" ∧ AnchoredOut p ∧
      (∀ x, p.outPrefix = some x → '/' ∉ x.toList) ∧
      ∃ q, s'.t q ≠ s.t q ∧ s'.t q = some (.nc j.id) := by
  have key : ∀ (p : Payload) (n : Nat) (q : FsPath) (s s' : FSys),
      s = srvAfter (oneJob p [] false ++ fRun 8 n) →
      (fileFacts "Jobs" ["srv"] { w := {}, t := tHome } (oneJob p [] false ++ fRun 8 n)).isSome = true →
      fact "Jobs" s (.step 8) = some s' →
      (s.w.job? 1).map (·.payload) = some (fillPaths p "/home/u") →
      s.t q = none → s'.t q = some (.nc 1) →
      ∃ s s' j, FStepsFile "Jobs" ["srv"] { w := {}, t := tHome } s ∧
      (∃ i, fact "Jobs" s (.step i) = some s') ∧ j ∈ s.w.jobs ∧
      j.payload = fillPaths p "/home/u" ∧
      ∃ q, s'.t q ≠ s.t q ∧ s'.t q = some (.nc j.id) := by
    rintro p n q s s' rfl h0 h1 h2 h3 h4
    obtain ⟨j, hj, hp⟩ := Option.map_eq_some_iff.mp h2
    refine ⟨_, s', j, srvAfter_steps h0, ⟨8, h1⟩, (job?_some hj).2, hp, q, ?_, ?_⟩
    · rw [h3, h4]; simp
    · rw [(job?_some hj).1, h4]
  intro p hp
  simp only [List.mem_cons, List.not_mem_nil, or_false] at hp
  rcases hp with rfl | rfl
  · obtain ⟨s, s', j, h1, h2, h3, h4, h5⟩ := key (plS "s") 8 ["home", "u", "results.1.nc"] _ _ rfl
      rfl rfl rfl rfl rfl
    exact ⟨s, s', j, h1, h2, h3, h4, by rintro o ⟨⟩, by rintro x ⟨⟩, h5⟩
  · obtain ⟨s, s', j, h1, h2, h3, h4, h5⟩ :=
      key { plS "s" with outPath := some "/data/x", outPrefix := some "my" } 11
        ["data", "x", "my.nc"] _ _ rfl rfl rfl rfl rfl rfl
    refine ⟨s, s', j, h1, h2, h3, h4, ?_, ?_, h5⟩
    · rintro o ⟨⟩; rfl
    · rintro x ⟨⟩; decide

end Tomato.Props
