import Verif.Props.EndToEnd

/-!
# Nothing foreign in the file of a job (C72)
-/

namespace Tomato.Props
open Tomato.E2E

/-! ## Data on their way, whether or not tasks are told to stop -/

structure LInv (h : List Ev) (s : St) : Prop where
  netT : NetT s.net s.t.pc
  netC : NetC s.net s.d.cpc
  link : fetchedAll (devPart h) = JobT.delivered (thrPart h) ++ flight s

theorem net_gets {net : Net} {cp : I21.CPc} {pc : JobT.Pc} (hC : NetC net cp) (hT : NetT net pc)
    (hc : cp = .gLock ∨ cHolds cp = true) :
    ∃ q, net = .exec q ∧ pc = .wait q ∧ (q = .data ∨ q = .final ∨ q = .stop) := by
  have hno : ¬ (cp = .idle ∨ cp = .mEmpty ∨ cp = .mPut) := by
    rintro (rfl | rfl | rfl) <;> simp [cHolds] at hc
  cases hn : net with
  | exec q =>
    have hw := net_wait hT hn
    subst hn
    refine ⟨q, rfl, hw, ?_⟩
    cases q
    case reset => obtain ⟨b, rfl⟩ := hC; simp [cHolds] at hc
    case data => simp
    case final => simp
    case stop => simp
    all_goals exact hC.elim
  | _ => subst hn; exact absurd hC hno

theorem linv_thr {h : List Ev} {s s' : St} {c : JobT.Choice} {es : List Ev} (hi : LInv h s)
    (ha : act s (.thr c) = some (s', es)) (hg : ¬ Gone s') : LInv (h ++ es) s' := by
  obtain ⟨⟨tk, i, pc, cur, names, noList, crashed, file⟩, d, net⟩ := s
  obtain ⟨h2, h3, h6⟩ := hi
  simp only at h2 h3 h6
  have quick : ∀ (t' : JobT.Thr) (e : JobT.Ev) (n' : Net), NetT n' t'.pc → NetC n' d.cpc →
      flightOf net d.cpc = JobT.delivered [e] ++ flightOf n' d.cpc →
      LInv (h ++ [.thr e]) ⟨t', d, n'⟩ := by
    intro t' e n' q2 q3 q6
    have e1 : devPart (h ++ [.thr e]) = devPart h := by
      rw [devPart_append]; exact List.append_nil _
    have e2 : thrPart (h ++ [.thr e]) = thrPart h ++ [e] := by
      rw [thrPart_append]; rfl
    refine ⟨q2, q3, ?_⟩
    rw [e1, e2, JobT.delivered_snoc, h6, List.append_assoc]
    exact congrArg (JobT.delivered (thrPart h) ++ ·) q6
  cases pc with
  | wait q =>
    simp only [act] at ha
    cases net with
    | ans a =>
      simp only [thrStep, JobT.tstep] at ha
      injection ha with ha; injection ha with e1 e2; subst e1; subst e2
      cases a with
      | closed => exact absurd (.inl rfl) hg
      | reply ok st ps =>
        simp only [NetT, reduceCtorEq, false_or] at h2
        obtain ⟨_, ha', h2⟩ := h2
        injection ha' with ha'; subst ha'
        have h3' : NetC .idle d.cpc := h3
        refine quick _ _ _ ?_ h3' ?_
        · cases hx : JobT.next tk[i]? q (.reply ok st ps) c.late with
          | wait q' => exact absurd hx (JobT.next_ne.2.2 q')
          | _ => rfl
        · cases ps with
          | none => cases q <;> cases ok <;> rfl
          | some ps => rcases h2 _ _ _ rfl with rfl | rfl | rfl <;> cases ok <;> simp [flightOf, JobT.delivered]
    | _ => cases ha
  | ask q =>
    have hnet : net = .idle := h2
    subst hnet
    simp only [act, thrStep, JobT.tstep] at ha
    injection ha with ha; injection ha with e1 e2; subst e1; subst e2
    exact quick _ _ _ (.inl rfl) h3 rfl
  | load ps n =>
    have hnet : net = .idle := h2
    subst hnet
    cases file
    all_goals
      simp only [act, thrStep, JobT.tstep] at ha
      injection ha with ha; injection ha with e1 e2; subst e1; subst e2
      exact quick _ _ _ rfl h3 rfl
  | dump ps n =>
    have hnet : net = .idle := h2
    subst hnet
    simp only [act, thrStep, JobT.tstep] at ha
    injection ha with ha; injection ha with e1 e2; subst e1; subst e2
    refine quick _ _ _ ?_ h3 rfl
    cases n <;> rfl
  | fin => cases ha
  | exited => cases ha
  | dead => cases ha
  | _ =>
    have hnet : net = .idle := h2
    subst hnet
    simp only [act, thrStep] at ha
    generalize hx : JobT.tstep _ c = x at ha
    cases x with
    | none => cases ha
    | some r =>
      obtain ⟨t', e⟩ := r
      injection ha with ha; injection ha with e1 e2; subst e1; subst e2
      simp only [JobT.tstep] at hx
      (try split at hx)
      all_goals
        injection hx with hx; injection hx with e1 e2; subst e1; subst e2
        exact quick _ _ _ rfl h3 rfl

theorem linv_dev {h : List Ev} {s : St} {d' : I21.Dev} {n' : Net} {es : List I21.Ev} (hi : LInv h s)
    (h2 : NetT n' s.t.pc) (h3 : NetC n' d'.cpc)
    (h6 : flight s ++ fetchedAll es = flightOf n' d'.cpc) :
    LInv (h ++ es.map .dev) { s with d := d', net := n' } := by
  refine ⟨h2, h3, ?_⟩
  rw [devPart_append, thrPart_append, devPart_dev, thrPart_dev, List.append_nil, fetchedAll_append,
    hi.link, List.append_assoc, h6]
  rfl

theorem linv_work {h : List Ev} {s s' : St} {c : I21.Choice} {es : List Ev} (hi : LInv h s)
    (ha : act s (.work c) = some (s', es)) : LInv (h ++ es) s' := by
  simp only [act] at ha
  cases hw : I21.wstep s.d c with
  | none => rw [hw] at ha; cases ha
  | some r =>
    obtain ⟨d', es'⟩ := r
    rw [hw] at ha
    injection ha with ha; injection ha with e1 e2; subst e1; subst e2
    have hc : d'.cpc = s.d.cpc ∧ fetchedAll es' = [] := by
      simp only [I21.wstep] at hw
      repeat' split at hw
      all_goals first
        | (cases hw; done)
        | (injection hw with hw; injection hw with e1 e2; subst e1; subst e2; exact ⟨rfl, rfl⟩)
    refine linv_dev hi hi.netT ?_ ?_
    · rw [hc.1]; exact hi.netC
    · rw [hc.1, hc.2, List.append_nil]; rfl

theorem linv_measure {h : List Ev} {s s' : St} {es : List Ev} (hi : LInv h s)
    (ha : act s .measure = some (s', es)) : LInv (h ++ es) s' := by
  simp only [act] at ha
  split at ha
  · next hc =>
    injection ha with ha; injection ha with e1 e2; subst e1; subst e2
    have hne := net_idle hi.netC hc
    have hm : ((I21.cbegin s.d .measure).1.cpc = .idle ∨ (I21.cbegin s.d .measure).1.cpc = .mEmpty) ∧
        fetchedAll (I21.cbegin s.d .measure).2 = [] := by
      simp only [I21.cbegin]
      split
      · exact ⟨.inl hc, rfl⟩
      · exact ⟨.inr rfl, rfl⟩
    refine linv_dev hi hi.netT (netC_other hne ?_ hi.netC) ?_
    · rcases hm.1 with h | h <;> simp [h]
    · rw [hm.2, List.append_nil]; exact flightOf_other hne
  · cases ha

theorem linv_cont {h : List Ev} {s s' : St} {es : List Ev} (hi : LInv h s)
    (ha : act s .cont = some (s', es)) : LInv (h ++ es) s' := by
  simp only [act] at ha
  cases hw : I21.cstep s.d with
  | none => rw [hw] at ha; cases ha
  | some r =>
    obtain ⟨d', es'⟩ := r
    rw [hw] at ha
    injection ha with ha; injection ha with e1 e2; subst e1; subst e2
    have hnT := hi.netT
    have hnC := hi.netC
    unfold I21.cstep at hw
    cases hcp : s.d.cpc with
    | idle => rw [hcp] at hw; cases hw
    | gLock =>
      rw [hcp] at hw hnC
      simp only at hw
      split at hw
      · injection hw with hw; injection hw with e1 e2; subst e1; subst e2
        obtain ⟨q, h1, h2, h3⟩ := net_gets hnC hnT (.inl rfl)
        rw [answered_nil]
        refine linv_dev hi hnT ?_ ?_
        · rw [h1]; rcases h3 with rfl | rfl | rfl <;> simp [NetC, cHolds]
        · simp only [flight, hcp, h1]; rfl
      · cases hw
    | gRead =>
      rw [hcp] at hw hnC
      injection hw with hw; injection hw with e1 e2; subst e1; subst e2
      obtain ⟨q, h1, h2, h3⟩ := net_gets hnC hnT (.inr rfl)
      rw [answered_fetched]
      refine linv_dev hi hnT ?_ ?_
      · rw [h1]; rcases h3 with rfl | rfl | rfl <;> simp [NetC, cHolds]
      · simp only [flight, hcp, h1, flightOf, handedOut, fetchedAll]
        cases s.d.data <;> simp
    | gClear r =>
      rw [hcp] at hw hnC
      injection hw with hw; injection hw with e1 e2; subst e1; subst e2
      obtain ⟨q, h1, h2, h3⟩ := net_gets hnC hnT (.inr rfl)
      rw [answered_nil]
      refine linv_dev hi hnT ?_ ?_
      · rw [h1]; rcases h3 with rfl | rfl | rfl <;> simp [NetC, cHolds]
      · simp only [flight, hcp, h1]
        simp [flightOf, handedOut, fetchedAll]
    | gRet r =>
      rw [hcp] at hw hnC
      injection hw with hw; injection hw with e1 e2; subst e1; subst e2
      obtain ⟨q, h1, h2, h3⟩ := net_gets hnC hnT (.inr rfl)
      rw [h1]
      refine linv_dev hi ?_ (.inl rfl) ?_
      · rw [h2]
        exact .inr (.inr ⟨_, rfl, fun _ _ _ _ => h3⟩)
      · simp only [flight, hcp, h1, answered]
        rcases h3 with rfl | rfl | rfl <;> cases r <;> simp [reply, flightOf, handedOut, fetchedAll]
    | mEmpty =>
      have hne := net_other hnC (.inl hcp)
      rw [hcp] at hw
      have hd : (d'.cpc = .idle ∨ d'.cpc = .mPut) ∧ fetchedAll es' = [] := by
        cases hq : s.d.queue with
        | nil =>
          rw [hq] at hw
          injection hw with hw; injection hw with e1 e2; subst e1; subst e2; exact ⟨.inr rfl, rfl⟩
        | cons x q =>
          rw [hq] at hw
          injection hw with hw; injection hw with e1 e2; subst e1; subst e2; exact ⟨.inl rfl, rfl⟩
      rw [answered_other hne]
      refine linv_dev hi hnT (netC_other hne (by rcases hd.1 with h | h <;> simp [h]) hnC) ?_
      rw [hd.2, List.append_nil]
      exact flightOf_other hne
    | mPut =>
      have hne := net_other hnC (.inr hcp)
      rw [hcp] at hw
      injection hw with hw; injection hw with e1 e2; subst e1; subst e2
      rw [answered_other hne]
      refine linv_dev hi hnT (netC_other hne (.inl rfl) hnC) ?_
      rw [show fetchedAll [.mAccepted] = [] from rfl, List.append_nil]
      exact flightOf_other hne
    | rJoin b =>
      rw [hcp] at hw hnC
      simp only at hw
      split at hw
      · injection hw with hw; injection hw with e1 e2; subst e1; subst e2
        obtain ⟨h1, h2⟩ := net_reset hnC hnT
        rw [h1]
        refine linv_dev hi ?_ (.inl rfl) ?_
        · rw [h2]; exact .inr (.inr ⟨_, rfl, by simp⟩)
        · simp [flight, hcp, h1, flightOf, handedOut, fetchedAll, answered]
      · cases hw

theorem linv_take {h : List Ev} {s s' : St} {acc : Bool} {es : List Ev} (hi : LInv h s)
    (ha : act s (.take acc) = some (s', es)) : LInv (h ++ es) s' := by
  simp only [act] at ha
  cases hnet : s.net with
  | req q =>
    rw [hnet] at ha
    simp only at ha
    split at ha
    · next hc =>
      injection ha with ha; injection ha with e1 e2; subst e1; subst e2
      have hpc : s.t.pc = .wait q := by
        have hT := hi.netT
        rw [hnet] at hT
        cases hpc : s.t.pc with
        | wait q' =>
          rw [hpc] at hT
          simp [NetT] at hT
          rw [hT]
        | _ => rw [hpc] at hT; cases hT
      have hfl : flight s = [] := by simp [flight, hnet, flightOf]
      have quick : ∀ (a : JobT.Ans), (∀ ok st ps, a ≠ .reply ok st (some ps)) →
          LInv (h ++ []) { s with net := .ans a } := by
        intro a q1
        rw [List.append_nil]
        refine ⟨?_, .inl hc, ?_⟩
        · rw [hpc]; exact .inr (.inr ⟨a, rfl, fun ok st ps h => absurd h (q1 ok st ps)⟩)
        · rw [hi.link, hfl, flight]
          cases a with
          | closed => rfl
          | reply ok st ps =>
            cases ps with
            | none => cases ok <;> rfl
            | some ps => exact absurd rfl (q1 _ _ _)
      cases q with
      | ready => exact quick _ (by simp [status])
      | running => exact quick _ (by simp [status])
      | status => exact quick _ (by simp [status])
      | start =>
        cases acc with
        | false => exact quick _ (by simp)
        | true =>
          refine linv_dev (es := (I21.cbegin s.d (.start s.t.i)).2) hi ?_ (.inl hc) ?_
          · rw [hpc]; exact .inr (.inr ⟨_, rfl, by simp⟩)
          · rw [hfl]; rfl
      | reset =>
        refine linv_dev (es := (I21.cbegin s.d (.reset true)).2) hi ?_ ⟨true, rfl⟩ ?_
        · rw [hpc]; exact .inr (.inl rfl)
        · rw [hfl]; rfl
      | stop =>
        refine linv_dev (es := (I21.cbegin s.d .stop).2) hi ?_ (.inl rfl) ?_
        · rw [hpc]; exact .inr (.inl rfl)
        · rw [hfl]; rfl
      | data =>
        refine linv_dev (es := (I21.cbegin s.d .data).2) hi ?_ (.inl rfl) ?_
        · rw [hpc]; exact .inr (.inl rfl)
        · rw [hfl]; rfl
      | final =>
        refine linv_dev (es := (I21.cbegin s.d .data).2) hi ?_ (.inl rfl) ?_
        · rw [hpc]; exact .inr (.inl rfl)
        · rw [hfl]; rfl
    · cases ha
  | _ => rw [hnet] at ha; cases ha

theorem linv {tasks : List Task} {d₀ : I21.Dev} {h : List Ev} {s : St} (hr : d₀.cpc = .idle)
    (hh : Hist tasks d₀ h s) (hg : ¬ Gone s) : LInv h s := by
  induction hh with
  | init => exact ⟨rfl, .inl hr, rfl⟩
  | @step h s s' es a hh ha ih =>
    have hi := ih (fun h => hg ((gone_step ha).1 h))
    cases a with
    | thr c => exact linv_thr hi ha hg
    | tell ns =>
      injection ha with ha; injection ha with h1 h2; subst h1; subst h2
      rw [List.append_nil]
      exact ⟨hi.netT, hi.netC, hi.link⟩
    | take acc => exact linv_take hi ha
    | work c => exact linv_work hi ha
    | cont => exact linv_cont hi ha
    | measure => exact linv_measure hi ha
    | lose =>
      exfalso
      simp only [act] at ha
      have hT := hi.netT
      have hne : s.net ≠ .idle := by intro h; rw [h] at ha; cases ha
      split at ha
      · cases ha
      · injection ha with ha; injection ha with h1 h2; subst h1; subst h2
        apply hg
        refine .inr (.inr ⟨rfl, ?_⟩)
        cases hpc : s.t.pc with
        | wait q => exact ⟨q, rfl⟩
        | _ => rw [hpc] at hT; exact absurd hT hne

/-- What the thread has got was handed out by the component. -/
theorem delivered_fetched {tasks : List Task} {d₀ : I21.Dev} {h : List Ev} {s : St}
    (hr : d₀.cpc = .idle) (hh : Hist tasks d₀ h s) :
    JobT.delivered (thrPart h) <+: fetchedAll (devPart h) := by
  induction hh with
  | init => exact List.nil_prefix
  | @step h s s' es a hh ha ih =>
    by_cases hg : Gone s'
    · have hz := (gone_step ha).2 hg
      have e : JobT.delivered (thrPart (h ++ es)) = JobT.delivered (thrPart h) := by
        rw [thrPart_append]
        simp only [JobT.delivered, List.flatMap_append] at hz ⊢
        rw [hz, List.append_nil]
      rw [e, devPart_append, fetchedAll_append]
      exact ih.trans (List.prefix_append _ _)
    · rw [(linv hr (.step a hh ha) hg).link]
      exact List.prefix_append _ _

/-! ## The component -/

theorem sub_act {h₀ h : List I21.Ev} {d d' : I21.Dev} {a : I21.Act} {es : List I21.Ev}
    (hi : Inv h₀ d) (ha : I21.act d a = some (d', es))
    (hp : List.Sublist (fetchedAll h ++ inCache d ++ beingStored d) (measuredAll h)) :
    List.Sublist (fetchedAll (h ++ es) ++ inCache d' ++ beingStored d') (measuredAll (h ++ es)) := by
  rw [measuredAll_append, fetchedAll_append]
  have hp1 : List.Sublist (fetchedAll h) (measuredAll h) :=
    ((List.sublist_append_left _ _).trans (List.sublist_append_left _ _)).trans hp
  revert hp hp1
  generalize fetchedAll h = f
  generalize measuredAll h = m
  intro hp hp1
  obtain ⟨-, -, -, h3, h4, -, -, h7⟩ := hi
  obtain ⟨q, r, dr, dt, dd, l, lk, w, cp⟩ := d
  simp only at h3 h4 h7
  cases a with
  | worker c =>
    simp only [I21.act] at ha
    unfold I21.wstep at ha
    simp only at ha
    split at ha
    all_goals (try split at ha)
    all_goals first
      | (cases ha; done)
      | skip
    all_goals (injection ha with ha; injection ha with ha1 ha2; subst ha1; subst ha2)
    all_goals
      simp_all [measuredAll, fetchedAll, inCache, beingStored, I21.storeData, wHolds]
    · cases cp <;> simpa using hp1
    · rw [← List.append_assoc]; exact hp.append (List.Sublist.refl _)
    · cases cp <;> simp_all [cHolds] <;> cases dd <;> cases l <;> simp_all
  | cmd c =>
    simp only [I21.act] at ha
    split at ha
    · injection ha with ha
      cases c <;> simp only [I21.cbegin] at ha
      all_goals (try split at ha)
      all_goals (injection ha with ha1 ha2; subst ha1; subst ha2)
      all_goals simp_all [measuredAll, fetchedAll, inCache, beingStored]
    · cases ha
  | cont =>
    simp only [I21.act] at ha
    unfold I21.cstep at ha
    simp only at ha
    split at ha
    all_goals (try split at ha)
    all_goals first
      | (cases ha; done)
      | skip
    all_goals (injection ha with ha; injection ha with ha1 ha2; subst ha1; subst ha2)
    all_goals
      simp_all [measuredAll, fetchedAll, inCache, beingStored, I21.afterReset, cHolds, wHolds]

theorem wstep_sub {h : List I21.Ev} {d d' : I21.Dev} {c : I21.Choice} {es : List I21.Ev}
    (hi : Inv h d) (ha : I21.wstep d c = some (d', es)) : ∀ n ∈ e2ePresent d', n ∈ e2ePresent d := by
  obtain ⟨-, -, -, h3, h4, -, -, h7⟩ := hi
  obtain ⟨q, r, dr, dt, dd, l, lk, w, cp⟩ := d
  simp only at h3 h4 h7
  cases w
  case got x =>
    cases x
    all_goals
      simp only [I21.wstep] at ha
      injection ha with ha; injection ha with ha1 ha2; subst ha1; subst ha2
      simp_all [e2ePresent, held, heldOf, wItem, wLeaving, wRunning]
  case noTask x =>
    cases x
    all_goals
      simp only [I21.wstep] at ha
      injection ha with ha; injection ha with ha1 ha2; subst ha1; subst ha2
      simp_all [e2ePresent, held, heldOf, wItem, wLeaving, wRunning]
  case get =>
    cases q with
    | nil =>
      simp only [I21.wstep] at ha
      injection ha with ha; injection ha with ha1 ha2; subst ha1; subst ha2
      simp_all [e2ePresent, held, heldOf, wItem, wLeaving, wRunning]
    | cons x q =>
      cases x
      all_goals
        simp only [I21.wstep] at ha
        injection ha with ha; injection ha with ha1 ha2; subst ha1; subst ha2
        simp_all [e2ePresent, held, heldOf, wItem, wLeaving, wRunning, tasksOf_task, tasksOf_measure]
  all_goals simp only [I21.wstep] at ha
  all_goals (try split at ha)
  all_goals first
    | (cases ha; done)
    | skip
  all_goals (injection ha with ha; injection ha with ha1 ha2; subst ha1; subst ha2)
  all_goals
    simp_all [e2ePresent, held, heldOf, wItem, wRunning, wLeaving]

/-- Data are only measured for tasks which have been accepted. -/
theorem accepted_act {hd h : List I21.Ev} {d d' : I21.Dev} {a : I21.Act} {es : List I21.Ev}
    (hi : Inv hd d) (ha : I21.act d a = some (d', es))
    (hp : ∀ n ∈ e2ePresent d, .accepted n ∈ h)
    (hm : ∀ n ps, .measured n ps ∈ h → .accepted n ∈ h) :
    (∀ n ∈ e2ePresent d', .accepted n ∈ h ++ es) ∧
    (∀ n ps, .measured n ps ∈ h ++ es → .accepted n ∈ h ++ es) := by
  cases a with
  | worker c =>
    refine ⟨fun n hn => List.mem_append_left _ (hp n (wstep_sub hi ha n hn)), fun n ps hn => ?_⟩
    rcases List.mem_append.mp hn with hn | hn
    · exact List.mem_append_left _ (hm n ps hn)
    · exact List.mem_append_left _ (hp n ((wstep_present hi ha).2.2.2.2.2.1 n ps hn))
  | cont =>
    obtain ⟨w1, w2, w3, w4, w5⟩ := cstep_present hi ha
    refine ⟨fun n hn => List.mem_append_left _ ?_, fun n ps hn => ?_⟩
    · rcases w1 with ⟨w1, _⟩ | ⟨_, w1, _⟩
      · exact hp n (w1 ▸ hn)
      · rw [w1] at hn; cases hn
    · rcases List.mem_append.mp hn with hn | hn
      · exact List.mem_append_left _ (hm n ps hn)
      · exact absurd hn (w4 n ps)
  | cmd c =>
    simp only [I21.act] at ha
    split at ha
    · injection ha with ha
      have hp' : ∀ n ∈ e2ePresent d', n ∈ e2ePresent d ∨ .accepted n ∈ es := by
        cases c
        case measure =>
          have h1 := (measure_present (d := d)).1
          rw [ha] at h1
          intro n hn
          exact .inl (h1 ▸ hn)
        case start t =>
          injection ha with ha1 ha2; subst ha1; subst ha2
          intro n hn
          simp only [e2ePresent, tasksOf_append, List.mem_append] at hn ⊢
          rcases hn with hn | hn | hn
          · exact .inl (.inl hn)
          · exact .inl (.inr hn)
          · rw [tasksOf_task, tasksOf_nil] at hn
            right; simpa using hn
        all_goals
          injection ha with ha1 ha2; subst ha1; subst ha2
          intro n hn
          exact .inl hn
      have hm' : ∀ n ps, .measured n ps ∉ es := by
        intro n ps hn
        cases c
        case measure =>
          have h1 := (measure_present (d := d)).2.2.2.2.2
          rw [ha] at h1
          rcases h1 with h1 | h1 <;> simp only at h1 <;> rw [h1] at hn <;> simp at hn
        all_goals
          injection ha with ha1 ha2; subst ha2
          simp at hn
      refine ⟨fun n hn => ?_, fun n ps hn => ?_⟩
      · rcases hp' n hn with h | h
        · exact List.mem_append_left _ (hp n h)
        · exact List.mem_append_right _ h
      · rcases List.mem_append.mp hn with hn | hn
        · exact List.mem_append_left _ (hm n ps hn)
        · exact absurd hn (hm' n ps)
    · cases ha

theorem rests_present {hd : List I21.Ev} {d₀ : I21.Dev} (h0 : I21.Hist hd d₀) (hr : Rests hd d₀) :
    e2ePresent d₀ = [] ∧ inCache d₀ = [] ∧ beingStored d₀ = [] := by
  have hi := cinv h0 hr (tasks := []) .init (by simp [thrPart]) (by simp [Gone, St.init])
  have h1 : e2ePresent d₀ = [] ∧ inCache d₀ = [] := hi.stg
  have h2 : [] = [] ++ inCache d₀ ++ beingStored d₀ := hi.pts
  refine ⟨h1.1, h1.2, ?_⟩
  rw [h1.2] at h2
  simpa using h2.symm

/-- In between requests the network is idle. -/
def NetW (net : Net) (pc : JobT.Pc) : Prop :=
  match pc with
  | .wait q => net = .req q ∨ net = .exec q ∨ ∃ a, net = .ans a
  | _ => net = .idle

theorem tstep_wait {t t' : JobT.Thr} {c : JobT.Choice} {e : JobT.Ev}
    (ht : JobT.tstep t c = some (t', e)) :
    (∃ q, t.pc = .ask q ∧ t'.pc = .wait q) ∨ ((∀ q, t.pc ≠ .ask q) ∧ ∀ q, t'.pc ≠ .wait q) := by
  cases hpc : t.pc with
  | ask q =>
    simp only [JobT.tstep, hpc] at ht
    injection ht with ht; injection ht with ht _; subst ht
    exact .inl ⟨q, rfl, rfl⟩
  | wait q =>
    simp only [JobT.tstep, hpc] at ht
    injection ht with ht; injection ht with ht _; subst ht
    exact .inr ⟨by simp, fun q' => JobT.next_ne.2.2 q'⟩
  | dump ps n =>
    simp only [JobT.tstep, hpc] at ht
    injection ht with ht; injection ht with ht _; subst ht
    exact .inr ⟨by simp, by cases n <;> simp [JobT.Nxt.pc]⟩
  | _ =>
    right
    refine ⟨by simp, ?_⟩
    simp only [JobT.tstep, hpc] at ht
    (try split at ht)
    all_goals first
      | (cases ht; done)
      | (injection ht with ht; injection ht with ht _; subst ht; simp [hpc])

theorem netW_nowait {net : Net} {pc : JobT.Pc} (hp : ∀ q, pc ≠ .wait q) : NetW net pc ↔ net = .idle := by
  cases pc with
  | wait q => exact absurd rfl (hp q)
  | _ => exact Iff.rfl

theorem netW {tasks : List Task} {d₀ : I21.Dev} {h : List Ev} {s : St} (hh : Hist tasks d₀ h s) :
    NetW s.net s.t.pc := by
  induction hh with
  | init => rfl
  | @step h s s' es a hh ha ih =>
    cases a with
    | thr c =>
      have key : ∀ c' n, thrStep s c' n = some (s', es) → ∃ e, JobT.tstep s.t c' = some (s'.t, e) ∧
          s'.net = n := by
        intro c' n hs
        simp only [thrStep] at hs
        cases ht : JobT.tstep s.t c' with
        | none => rw [ht] at hs; cases hs
        | some r =>
          obtain ⟨t', e⟩ := r
          rw [ht] at hs
          injection hs with hs; injection hs with h1 h2; subst h1
          exact ⟨e, rfl, rfl⟩
      simp only [act] at ha
      cases hpc : s.t.pc with
      | wait q =>
        rw [hpc] at ha
        cases hnet : s.net with
        | ans a =>
          rw [hnet] at ha
          obtain ⟨e, h1, h2⟩ := key _ _ ha
          rcases tstep_wait h1 with ⟨q', h3, _⟩ | ⟨_, h3⟩
          · rw [hpc] at h3; cases h3
          · rw [h2]; exact (netW_nowait h3).mpr rfl
        | _ => rw [hnet] at ha; cases ha
      | ask q =>
        rw [hpc] at ha
        obtain ⟨e, h1, h2⟩ := key _ _ ha
        rcases tstep_wait h1 with ⟨q', h3, h4⟩ | ⟨h3, _⟩
        · rw [hpc] at h3; injection h3 with h3; subst h3
          rw [h2, h4]; exact .inl rfl
        · exact absurd hpc (h3 q)
      | _ =>
        rw [hpc] at ha ih
        obtain ⟨e, h1, h2⟩ := key _ _ ha
        rcases tstep_wait h1 with ⟨q', h3, h4⟩ | ⟨_, h3⟩
        · rw [hpc] at h3; cases h3
        · rw [h2]; exact (netW_nowait h3).mpr ih
    | tell ns =>
      injection ha with ha; injection ha with h1 h2; subst h1
      exact ih
    | take acc =>
      simp only [act] at ha
      cases hnet : s.net with
      | req q =>
        rw [hnet] at ha ih
        simp only at ha
        split at ha
        · injection ha with ha; injection ha with h1 h2; subst h1
          cases hpc : s.t.pc with
          | wait q' =>
            rw [hpc] at ih
            obtain rfl : q = q' := by simpa [NetW] using ih
            cases q
            case start => cases acc <;> simp [take, NetW, hpc]
            all_goals simp [take, NetW, hpc]
          | _ => rw [hpc] at ih; cases ih
        · cases ha
      | _ => rw [hnet] at ha; cases ha
    | work c =>
      simp only [act] at ha
      split at ha
      · cases ha
      · injection ha with ha; injection ha with h1 h2; subst h1
        exact ih
    | cont =>
      simp only [act] at ha
      split at ha
      · cases ha
      · next es' _ =>
        injection ha with ha; injection ha with h1 h2; subst h1
        cases hpc : s.t.pc with
        | wait q =>
          rw [hpc] at ih
          change NetW (answered s.net es') (.wait q)
          rcases ih with h | h | ⟨a, h⟩
          · rw [h]; exact .inl rfl
          · rw [h]
            simp only [answered]
            split
            · exact .inr (.inr ⟨_, rfl⟩)
            · exact .inr (.inr ⟨_, rfl⟩)
            · exact .inr (.inl rfl)
          · rw [h]; exact .inr (.inr ⟨_, rfl⟩)
        | _ =>
          rw [hpc] at ih
          have hn : s.net = .idle := ih
          simp only [hn]
          rfl
    | measure =>
      simp only [act] at ha
      split at ha
      · injection ha with ha; injection ha with h1 h2; subst h1
        exact ih
      · cases ha
    | lose =>
      simp only [act] at ha
      have hne : s.net ≠ .idle := by intro h; rw [h] at ha; cases ha
      split at ha
      · cases ha
      · injection ha with ha; injection ha with h1 h2; subst h1
        cases hpc : s.t.pc with
        | wait q => exact .inr (.inr ⟨_, rfl⟩)
        | _ => rw [hpc] at ih; exact absurd ih hne

/-- Only tasks which the thread has started are accepted. -/
theorem accepted_started {tasks : List Task} {d₀ : I21.Dev} {h : List Ev} {s : St}
    (hh : Hist tasks d₀ h s) : ∀ n, .accepted n ∈ devPart h → n ∈ JobT.starts (thrPart h) := by
  induction hh with
  | init => simp [devPart]
  | @step h s s' es a hh ha ih =>
    intro n hn
    rw [devPart_append, List.mem_append] at hn
    have hmono : ∀ {x}, x ∈ JobT.starts (thrPart h) → x ∈ JobT.starts (thrPart (h ++ es)) := by
      intro x hx
      rw [thrPart_append]
      simp only [JobT.starts, List.filterMap_append, List.mem_append] at hx ⊢
      exact .inl hx
    rcases hn with hn | hn
    · exact hmono (ih n hn)
    · cases a with
      | thr c =>
        obtain ⟨_, _, e, _, rfl, _⟩ := thr_eq ha
        cases hn
      | tell ns =>
        injection ha with ha; injection ha with h1 h2; subst h2; cases hn
      | take acc =>
        simp only [act] at ha
        cases hnet : s.net with
        | req q =>
          rw [hnet] at ha
          simp only at ha
          split at ha
          · injection ha with ha; injection ha with h1 h2; subst h1; subst h2
            rw [devPart_dev] at hn
            have hw := netW hh
            rw [hnet] at hw
            cases q
            case start =>
              cases acc
              · cases hn
              · have hpc : s.t.pc = .wait .start := by
                  cases hpc : s.t.pc with
                  | wait q' => rw [hpc] at hw; simp [NetW] at hw; rw [hw]
                  | _ => rw [hpc] at hw; cases hw
                have hs := (JobT.tinv (thr_hist hh)).sent
                rw [hpc] at hs
                have hs' : JobT.starts (thrPart h) = List.range (s.t.i + 1) := hs.1
                have : n = s.t.i := by simpa [take, I21.cbegin] using hn
                apply hmono
                rw [hs', this]
                simp
            all_goals simp [take, I21.cbegin] at hn
          · cases ha
        | _ => rw [hnet] at ha; cases ha
      | work c =>
        simp only [act] at ha
        split at ha
        · cases ha
        · next hw =>
          injection ha with ha; injection ha with h1 h2; subst h2
          rw [devPart_dev] at hn
          exfalso
          simp only [I21.wstep] at hw
          repeat' split at hw
          all_goals first
            | (cases hw; done)
            | (injection hw with hw; injection hw with e1 e2; subst e2; simp at hn)
      | cont =>
        simp only [act] at ha
        split at ha
        · cases ha
        · next hw =>
          injection ha with ha; injection ha with h1 h2; subst h2
          rw [devPart_dev] at hn
          exfalso
          simp only [I21.cstep] at hw
          repeat' split at hw
          all_goals first
            | (cases hw; done)
            | (injection hw with hw; injection hw with e1 e2; subst e2; simp at hn)
      | measure =>
        simp only [act] at ha
        split at ha
        · injection ha with ha; injection ha with h1 h2; subst h2
          rw [devPart_dev] at hn
          rcases (measure_present (d := s.d)).2.2.2.2.2 with h | h <;> rw [h] at hn <;> simp at hn
        · cases ha
      | lose =>
        simp only [act] at ha
        split at ha
        · cases ha
        · injection ha with ha; injection ha with h1 h2; subst h2; cases hn

/-- What the component has handed out was measured for tasks it has accepted. -/
theorem dev_own {tasks : List Task} {d₀ : I21.Dev} {hd : List I21.Ev} {h : List Ev} {s : St}
    (h0 : I21.Hist hd d₀) (hr : Rests hd d₀) (hh : Hist tasks d₀ h s) :
    (fetchedAll (devPart h) ++ inCache s.d ++ beingStored s.d).Sublist (measuredAll (devPart h)) ∧
    (∀ n ∈ e2ePresent s.d, .accepted n ∈ devPart h) ∧
    (∀ n ps, .measured n ps ∈ devPart h → .accepted n ∈ devPart h) := by
  induction hh with
  | init =>
    obtain ⟨h1, h2, h3⟩ := rests_present h0 hr
    refine ⟨?_, ?_, ?_⟩
    · change ([] ++ inCache d₀ ++ beingStored d₀).Sublist []
      rw [h2, h3]; exact List.Sublist.refl _
    · intro n hn
      have hn : n ∈ e2ePresent d₀ := hn
      rw [h1] at hn; cases hn
    · intro n ps hn; cases hn
  | @step h s s' es a hh ha ih =>
    have hi := inv_hist (dev_hist h0 hh)
    rw [devPart_append]
    rcases dev_act ha with ⟨h1, h2⟩ | ⟨b, hb, _⟩
    · rw [h1, h2, List.append_nil]; exact ih
    · obtain ⟨i1, i2, i3⟩ := ih
      exact ⟨sub_act hi hb i1, accepted_act hi hb i2 i3⟩

/-! ## C72 -/

/-- **C72** (`_partial`: if the component rests when the thread begins, see `C72_refuted`): whatever
happens, at any moment the file contains only data points which were measured for tasks of the job
itself, after the thread began, in the order of the measurements and none of them twice. -/
theorem C72_own_partial {tasks : List Task} {d₀ : I21.Dev} {hd : List I21.Ev} {h : List Ev} {s : St}
    (h0 : I21.Hist hd d₀) (hr : Rests hd d₀) (hh : Hist tasks d₀ h s) :
    s.t.file.content.Sublist (measuredAll (devPart h)) ∧
    ∀ n ps, .measured n ps ∈ devPart h → n < tasks.length ∧ .sent n .start ∈ thrPart h := by
  obtain ⟨hsub, _, hacc⟩ := dev_own h0 hr hh
  constructor
  · have hd : List.Sublist (JobT.delivered (thrPart h)) (measuredAll (devPart h)) :=
      (delivered_fetched hr.command hh).sublist.trans
        (((List.sublist_append_left _ _).trans (List.sublist_append_left _ _)).trans hsub)
    have hf := JobT.fileOK (thr_hist hh)
    refine List.Sublist.trans ?_ hd
    unfold JobT.FileOK at hf
    split at hf
    · rw [← hf.2]; exact List.sublist_append_left _ _
    · obtain ⟨_, _, x, hx⟩ := hf; rw [← hx]; exact List.sublist_append_left _ _
    · rw [hf.1]; exact List.nil_sublist _
    · rw [hf.2]; exact List.Sublist.refl _
  · intro n ps hn
    have hst := accepted_started hh n (hacc n ps hn)
    have hmem : .sent n .start ∈ thrPart h := by
      simp only [JobT.starts, List.mem_filterMap] at hst
      obtain ⟨e, he, hx⟩ := hst
      split at hx
      · injection hx with hx; subst hx; exact he
      · cases hx
    refine ⟨?_, hmem⟩
    have hs := (JobT.tinv (thr_hist hh)).sent
    have : ∀ m, JobT.starts (thrPart h) = List.range m → m ≤ tasks.length → n < tasks.length := by
      intro m hm hle
      rw [hm, List.mem_range] at hst
      omega
    revert hs
    cases JobT.cls s.t.pc with
    | bad =>
      rintro (⟨h1, h2⟩ | ⟨h1, h2⟩)
      · exact this _ h1 h2
      · exact this _ h1 h2
    | cur => rintro ⟨h1, h2⟩; exact this _ h1 h2
    | pre => rintro ⟨h1, h2⟩; exact this _ h1 (by omega)
    | aft => rintro ⟨h1, h2⟩; exact this _ h1 (by omega)
    | _ => rintro ⟨h1, h2⟩; exact this _ h1 h2

/-! ### Examples -/

/-- The run of `C71_refuted`, with a task that is told to stop, is covered. -/
example : ∃ h s, Hist [e2eUntil] I21.Dev.init h s ∧ .sent 0 .stop ∈ thrPart h ∧
    .measured 0 [7] ∈ devPart h := by
  have hr : ∃ p, run (St.init [e2eUntil] I21.Dev.init) e2eLoses = some p ∧
      .sent 0 .stop ∈ thrPart p.2 ∧ .measured 0 [7] ∈ devPart p.2 :=
    ⟨_, rfl, by decide +kernel, by decide +kernel⟩
  obtain ⟨⟨s, h⟩, hr, h1⟩ := hr
  exact ⟨h, s, by simpa using e2e_hist .init hr, h1⟩

/-- An earlier job has left the component after a sample: its task is over, nobody has fetched the
data, and the component was not reset (see `C44_refuted_failure`). -/
def e2eLeft : List I21.Act :=
  [.cmd (.start 5)] ++ List.replicate 20 (.worker { result := some (some [7]), over := true })

/-- The next thread submits its task, sees it running, and fetches data before the worker has emptied
the cache. -/
def e2eEarly : List Act :=
  thrs 2 ++ rq ++ rq ++ works 4 ++ rq ++ [.thr { due := true }] ++ rqData ++ thrs 3

/-- **C72** is violated if the component was left with data by an earlier job: they end up in the file
of the next job, although nothing was measured for it yet.  The component has no tasks, and no command
is being carried out when the job begins. -/
theorem C72_refuted : ∃ hd d₀ h s, I21.Hist hd d₀ ∧ d₀.cpc = .idle ∧ d₀.running = none ∧
    d₀.queue = [] ∧ occupied hd = none ∧ Hist [e2eTask 1] d₀ h s ∧ s.t.file.content = [7] ∧
    ∀ n ps, .measured n ps ∉ devPart h := by
  have h1 : ∃ p, I21.run I21.Dev.init e2eLeft = some p ∧ p.1.cpc = .idle ∧ p.1.running = none ∧
      p.1.queue = [] ∧ occupied p.2 = none ∧
      ∃ r, run (St.init [e2eTask 1] p.1) e2eEarly = some r ∧ r.1.t.file.content = [7] ∧
        (devPart r.2).all (fun e => match e with | .measured _ _ => false | _ => true) = true :=
    ⟨_, rfl, rfl, rfl, rfl, rfl, _, rfl, rfl, rfl⟩
  obtain ⟨⟨d₀, hd⟩, h1, h2, h3, h4, h5, ⟨s, h⟩, h6, h7, h8⟩ := h1
  refine ⟨hd, d₀, h, s, by simpa using run_hist .init h1, h2, h3, h4, h5,
    by simpa using e2e_hist .init h6, h7, fun n ps hm => ?_⟩
  have := List.all_eq_true.mp h8 _ hm
  cases this

end Tomato.Props
