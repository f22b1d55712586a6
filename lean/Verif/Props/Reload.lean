import Verif.Props.DeviceFile
import Verif.Props.KeptConf

/-!
# C135: a reload that does not concern running jobs is accepted, and a refusal names its reason
-/

namespace Tomato.Props.Reload

/-- Components are listed under their names (`namesMatch_parsed`). -/
def CompsMatch (df : DeviceFile) : Prop := ∀ k c, Dict.get? df.components k = some c → c.name = k

/-- Pipelines and components refer to components and drivers of the same file (C32). -/
def Complete (df : DeviceFile) : Prop :=
  (∀ n p, Dict.get? df.pipelines n = some p → ∀ c ∈ Dict.values p.components, (Dict.get? df.components c).isSome) ∧
  ∀ n c, Dict.get? df.components n = some c → (Dict.get? df.drivers c.driver).isSome

/-- The pipeline has a job. -/
def Busy (w : World) (n : String) : Prop := ∃ ps ∈ w.pips, ps.name = n ∧ ps.jobid.isSome

/-- The component belongs to a pipeline with a job. -/
def InUse (w : World) (old : DeviceFile) (c : String) : Prop :=
  ∃ n p, Busy w n ∧ Dict.get? old.pipelines n = some p ∧ c ∈ Dict.values p.components

/-- What a refusal says about the old and the new configuration. -/
def Reason (w : World) (old new : DeviceFile) : CMsg → Prop
  | .deletesPipeline => ∃ n, Busy w n ∧ Dict.get? new.pipelines n = none
  | .modifiesPipeline => ∃ n p p', Busy w n ∧ Dict.get? old.pipelines n = some p ∧
      Dict.get? new.pipelines n = some p' ∧ ∃ role, Dict.get? p'.components role ≠ Dict.get? p.components role
  | .deletesComponent => ∃ c, InUse w old c ∧ Dict.get? new.components c = none
  | .modifiesComponent => ∃ c x x', InUse w old c ∧ Dict.get? old.components c = some x ∧
      Dict.get? new.components c = some x' ∧ ¬ (x'.driver = x.driver ∧ x'.address = x.address ∧ x'.channel = x.channel)
  | .deletesDriver => ∃ c x, InUse w old c ∧ Dict.get? old.components c = some x ∧
      Dict.get? new.drivers x.driver = none
  | .modifiesDriver => ∃ c x dr dr', InUse w old c ∧ Dict.get? old.components c = some x ∧
      Dict.get? old.drivers x.driver = some dr ∧ Dict.get? new.drivers x.driver = some dr' ∧
      ∃ k, Dict.get? dr'.settings k ≠ Dict.get? dr.settings k
  | _ => False

theorem eqv_false {K V : Type} [DecidableEq K] [DecidableEq V] {d e : Dict K V} (h : ¬ Dict.eqv d e = true) :
    ∃ k, Dict.get? d k ≠ Dict.get? e k := by
  apply Classical.byContradiction
  intro hc
  exact h (Dict.eqv_iff.mpr (fun k => Classical.byContradiction (fun hk => hc ⟨k, hk⟩)))

section
variable {w : World} {old new : DeviceFile}

theorem reason_pipelines (hn : NamesMatch old) (rp : List PipState)
    (hrp : ∀ ps ∈ rp, Busy w ps.name) (cs : List String) (hcs : ∀ c ∈ cs, InUse w old c) (w0 : World) :
    (runW (checkPipelines old new rp cs) w0).2 = w0 ∧
    match (runW (checkPipelines old new rp cs) w0).1 with
    | .error _ => ∃ ps ∈ rp, Dict.get? old.pipelines ps.name = none
    | .ok (.inl m) => Reason w old new m
    | .ok (.inr cs') => ∀ c ∈ cs', InUse w old c := by
  induction rp generalizing cs with
  | nil => exact ⟨rfl, hcs⟩
  | cons ps rp ih =>
    rw [checkPipelines]
    cases hp : Dict.get? old.pipelines ps.name with
    | none => exact ⟨rfl, ps, by simp, hp⟩
    | some p =>
      have hpn := hn _ _ hp
      dsimp only
      cases hp' : Dict.get? new.pipelines p.name with
      | none => exact ⟨rfl, ps.name, hrp ps (by simp), by rw [← hpn]; exact hp'⟩
      | some p' =>
        by_cases he : Dict.eqv p'.components p.components = true
        · simp only [he, if_true]
          obtain ⟨h1, h2⟩ := ih (fun q hq => hrp q (by simp [hq])) (cs ++ Dict.values p.components) (by
            intro c hc
            rcases List.mem_append.mp hc with hc | hc
            · exact hcs c hc
            · exact ⟨ps.name, p, hrp ps (by simp), hp, hc⟩)
          refine ⟨h1, ?_⟩
          revert h2
          cases (runW (checkPipelines old new rp (cs ++ Dict.values p.components)) w0).1 with
          | error e => rintro ⟨q, hq, h⟩; exact ⟨q, by simp [hq], h⟩
          | ok r => cases r <;> exact id
        · simp only [he]
          exact ⟨rfl, ps.name, p, p', hrp ps (by simp), hp, by rw [← hpn]; exact hp', eqv_false he⟩

theorem reason_components (ho : CompsMatch old) (hn : CompsMatch new) (cs : List String)
    (hcs : ∀ c ∈ cs, InUse w old c) (ds : List String)
    (hds : ∀ d ∈ ds, ∃ c x, InUse w old c ∧ Dict.get? old.components c = some x ∧ x.driver = d) (w0 : World) :
    (runW (checkComponents old new cs ds) w0).2 = w0 ∧
    match (runW (checkComponents old new cs ds) w0).1 with
    | .error _ => ∃ c ∈ cs, Dict.get? old.components c = none
    | .ok (.inl m) => Reason w old new m
    | .ok (.inr ds') => ∀ d ∈ ds', ∃ c x, InUse w old c ∧ Dict.get? old.components c = some x ∧ x.driver = d := by
  induction cs generalizing ds with
  | nil => exact ⟨rfl, hds⟩
  | cons cn cs ih =>
    rw [checkComponents]
    cases hc : Dict.get? old.components cn with
    | none => exact ⟨rfl, cn, by simp, hc⟩
    | some c =>
      dsimp only
      cases hc' : Dict.get? new.components cn with
      | none => exact ⟨rfl, cn, hcs cn (by simp), hc'⟩
      | some c' =>
        by_cases he : c.name ≠ c'.name ∨ c.driver ≠ c'.driver ∨ c.address ≠ c'.address ∨ c.channel ≠ c'.channel
        · simp only [he, if_true]
          refine ⟨rfl, cn, c, c', hcs cn (by simp), hc, hc', ?_⟩
          rintro ⟨e1, e2, e3⟩
          rcases he with h | h | h | h
          · exact h ((ho _ _ hc).trans (hn _ _ hc').symm)
          · exact h e1.symm
          · exact h e2.symm
          · exact h e3.symm
        · simp only [he, if_false]
          obtain ⟨h1, h2⟩ := ih (fun q hq => hcs q (by simp [hq])) (ds ++ [c.driver]) (by
            intro d hd
            rcases List.mem_append.mp hd with hd | hd
            · exact hds d hd
            · exact ⟨cn, c, hcs cn (by simp), hc, (List.mem_singleton.mp hd).symm⟩)
          refine ⟨h1, ?_⟩
          revert h2
          cases (runW (checkComponents old new cs (ds ++ [c.driver])) w0).1 with
          | error e => rintro ⟨q, hq, h⟩; exact ⟨q, by simp [hq], h⟩
          | ok r => cases r <;> exact id

theorem reason_drivers (ds : List String)
    (hds : ∀ d ∈ ds, ∃ c x, InUse w old c ∧ Dict.get? old.components c = some x ∧ x.driver = d) (w0 : World) :
    (runW (checkDrivers old new ds) w0).2 = w0 ∧
    match (runW (checkDrivers old new ds) w0).1 with
    | .error _ => ∃ d ∈ ds, Dict.get? old.drivers d = none
    | .ok (some m) => Reason w old new m
    | .ok none => True := by
  induction ds with
  | nil => exact ⟨rfl, trivial⟩
  | cons d ds ih =>
    obtain ⟨c, x, h1, h2, h3⟩ := hds d (by simp)
    rw [checkDrivers]
    cases hd' : Dict.get? new.drivers d with
    | none =>
      cases hd : Dict.get? old.drivers d with
      | none => exact ⟨rfl, d, by simp, hd⟩
      | some od => exact ⟨rfl, c, x, h1, h2, by rw [h3]; exact hd'⟩
    | some nd =>
      dsimp only
      cases hd : Dict.get? old.drivers d with
      | none => exact ⟨rfl, d, by simp, hd⟩
      | some od =>
        by_cases he : Dict.eqv od.settings nd.settings = true
        · simp only [he, if_true]
          obtain ⟨h4, h5⟩ := ih (fun q hq => hds q (by simp [hq]))
          refine ⟨h4, ?_⟩
          revert h5
          cases (runW (checkDrivers old new ds) w0).1 with
          | error e => rintro ⟨q, hq, h⟩; exact ⟨q, by simp [hq], h⟩
          | ok r => cases r <;> exact id
        · simp only [he]
          obtain ⟨k, hk⟩ := eqv_false he
          exact ⟨rfl, c, x, od, nd, h1, h2, by rw [h3]; exact hd, by rw [h3]; exact hd', k, fun h => hk h.symm⟩

end

/-- What a reload can come to. -/
theorem outcomes (w : World) (d : Daemon) (s : Settings) (df : DeviceFile) (hd : d.status ≠ .bootstrap)
    (hn : NamesMatch d.devicefile) (ho : CompsMatch d.devicefile)
    (hc : CompsMatch (Daemon.build d.status s df).devicefile) :
    (runW (cmdReload d (some (s, df))) w).2 = w ∧
    match (runW (cmdReload d (some (s, df))) w).1 with
    | .error _ => (∃ n, Busy w n ∧ Dict.get? d.devicefile.pipelines n = none) ∨ ¬ Complete d.devicefile
    | .ok (rep, d') =>
      (rep.success = true ∧ rep.msg = .reloaded ∧ d' = Daemon.build d.status s df) ∨
      (rep.success = false ∧ d' = d ∧ Reason w d.devicefile (Daemon.build d.status s df).devicefile rep.msg) := by
  unfold cmdReload
  rw [if_neg hd]
  simp only [runW, Prog.bind_eq, Prog.run_bind, Do.run_pipsWhere, exec_pipsWhere, Prog.andThen_ok]
  generalize hnd : Daemon.build d.status s df = nd at hc ⊢
  have hrp : ∀ ps ∈ w.pips.filter (fun p => p.jobid.isSome), Busy w ps.name := by
    intro ps hps
    rw [List.mem_filter] at hps
    exact ⟨ps, hps.1, rfl, hps.2⟩
  generalize w.pips.filter (fun p => p.jobid.isSome) = rp at hrp ⊢
  have h1 := reason_pipelines (w := w) (new := nd.devicefile) hn rp hrp [] (by simp) w
  rcases hr1 : Prog.run exec (checkPipelines d.devicefile nd.devicefile rp []) w with ⟨r1, w1⟩
  simp only [runW, hr1] at h1 ⊢
  obtain ⟨rfl, h1⟩ := h1
  rcases r1 with e | (m | cs)
  · obtain ⟨ps, hps, he⟩ := h1
    exact ⟨rfl, .inl ⟨ps.name, hrp ps hps, he⟩⟩
  · exact ⟨rfl, .inr ⟨rfl, rfl, h1⟩⟩
  · simp only [Prog.andThen_ok, Prog.run_bind]
    have h2 := reason_components (w := w1) ho hc cs h1 [] (by simp) w1
    rcases hr2 : Prog.run exec (checkComponents d.devicefile nd.devicefile cs []) w1 with ⟨r2, w2⟩
    simp only [runW, hr2] at h2 ⊢
    obtain ⟨rfl, h2⟩ := h2
    rcases r2 with e | (m | ds)
    · obtain ⟨c, hcm, he⟩ := h2
      refine ⟨rfl, .inr (fun hcl => ?_)⟩
      obtain ⟨n, p, -, hp, hcp⟩ := h1 c hcm
      have := hcl.1 n p hp c hcp
      rw [he] at this; cases this
    · exact ⟨rfl, .inr ⟨rfl, rfl, h2⟩⟩
    · simp only [Prog.andThen_ok, Prog.run_bind]
      have h3 := reason_drivers (w := w2) (new := nd.devicefile) ds h2 w2
      rcases hr3 : Prog.run exec (checkDrivers d.devicefile nd.devicefile ds) w2 with ⟨r3, w3⟩
      simp only [runW, hr3] at h3 ⊢
      obtain ⟨rfl, h3⟩ := h3
      rcases r3 with e | (_ | m)
      · obtain ⟨dn, hdn, he⟩ := h3
        refine ⟨rfl, .inr (fun hcl => ?_)⟩
        obtain ⟨c, x, -, hx, hxd⟩ := h2 dn hdn
        have := hcl.2 c x hx
        rw [hxd, he] at this; cases this
      · exact ⟨rfl, .inl ⟨rfl, rfl, rfl⟩⟩
      · exact ⟨rfl, .inr ⟨rfl, rfl, h3⟩⟩

/-- No refusal has a reason if all pipelines with a job are unchanged. -/
theorem no_reason {w : World} {old new : DeviceFile}
    (h : ∀ n, Busy w n → SamePipeline old new n) (m : CMsg) : ¬ Reason w old new m := by
  have hcomp : ∀ c, InUse w old c → SameComponent old new c := by
    rintro c ⟨n, p, hb, hp, hc⟩
    obtain ⟨q, q', h1, h2, h3, h4⟩ := h n hb
    rw [hp] at h1; cases h1
    exact h4 c hc
  cases m <;> simp only [Reason, not_false_eq_true]
  · rintro ⟨n, hb, hn⟩
    obtain ⟨q, q', h1, h2, h3, h4⟩ := h n hb
    rw [hn] at h2; cases h2
  · rintro ⟨n, p, p', hb, hp, hp', role, hr⟩
    obtain ⟨q, q', h1, h2, h3, h4⟩ := h n hb
    rw [hp] at h1; cases h1
    rw [hp'] at h2; cases h2
    exact hr (h3 role)
  · rintro ⟨c, hu, hn⟩
    obtain ⟨x, x', dr, dr', h1, h2, -⟩ := hcomp c hu
    rw [hn] at h2; cases h2
  · rintro ⟨c, x, x', hu, hx, hx', hne⟩
    obtain ⟨y, y', dr, dr', h1, h2, h3, h4, h5, -⟩ := hcomp c hu
    rw [hx] at h1; cases h1
    rw [hx'] at h2; cases h2
    exact hne ⟨h3, h4, h5⟩
  · rintro ⟨c, x, hu, hx, hn⟩
    obtain ⟨y, y', dr, dr', h1, h2, h3, h4, h5, h6, h7, h8⟩ := hcomp c hu
    rw [hx] at h1; cases h1
    rw [hn] at h7; cases h7
  · rintro ⟨c, x, dr, dr', hu, hx, hd, hd', k, hk⟩
    obtain ⟨y, y', er, er', h1, h2, h3, h4, h5, h6, h7, h8⟩ := hcomp c hu
    rw [hx] at h1; cases h1
    rw [hd] at h6; cases h6
    rw [hd'] at h7; cases h7
    exact hk (h8 k)

/-- **C135**: if the files can be parsed, and the pipelines with a job are configured as before, a reload is
accepted: the daemon uses the new configuration.  No table is changed. -/
theorem C135_accepted (w : World) (d : Daemon) (s : Settings) (df : DeviceFile) (hd : d.status ≠ .bootstrap)
    (hn : NamesMatch d.devicefile) (ho : CompsMatch d.devicefile) (hcl : Complete d.devicefile)
    (hc : CompsMatch (Daemon.build d.status s df).devicefile)
    (h : ∀ n, Busy w n → SamePipeline d.devicefile (Daemon.build d.status s df).devicefile n) :
    ∃ rep, runW (cmdReload d (some (s, df))) w = (.ok (rep, Daemon.build d.status s df), w) ∧
      rep.success = true ∧ rep.msg = .reloaded := by
  obtain ⟨h1, h2⟩ := outcomes w d s df hd hn ho hc
  rcases hr : runW (cmdReload d (some (s, df))) w with ⟨r, w'⟩
  rw [hr] at h1 h2
  cases h1
  rcases r with e | ⟨rep, d'⟩
  · rcases h2 with ⟨n, hb, he⟩ | h2
    · obtain ⟨q, q', h1, -⟩ := h n hb
      rw [he] at h1; cases h1
    · exact absurd hcl h2
  · rcases h2 with ⟨h3, h4, rfl⟩ | ⟨h3, -, h5⟩
    · exact ⟨rep, rfl, h3, h4⟩
    · exact absurd h5 (no_reason h _)

/-- **C135**, with C27: this is the exact condition. -/
theorem C135_exact (w : World) (d : Daemon) (s : Settings) (df : DeviceFile) (hd : d.status ≠ .bootstrap)
    (hn : NamesMatch d.devicefile) (ho : CompsMatch d.devicefile) (hcl : Complete d.devicefile)
    (hc : CompsMatch (Daemon.build d.status s df).devicefile) :
    (∃ rep d', (runW (cmdReload d (some (s, df))) w).1 = .ok (rep, d') ∧ rep.success = true) ↔
      ∀ n, Busy w n → SamePipeline d.devicefile (Daemon.build d.status s df).devicefile n := by
  constructor
  · rintro ⟨rep, d', h, hs⟩ n ⟨ps, hps, rfl, hj⟩
    have h' : runW (cmdReload d (some (s, df))) w = (.ok (rep, d'), (runW (cmdReload d (some (s, df))) w).2) := by
      rw [← h]
    have hd' := (reload_final w d s df hd rep d' _ h' hs).1
    rw [← hd']
    exact (C27_reload_protects_running w d _ hd hn rep d' _ h').2.2 hs ps hps hj
  · intro h
    obtain ⟨rep, hr, hs, -⟩ := C135_accepted w d s df hd hn ho hcl hc h
    exact ⟨rep, _, by rw [hr], hs⟩

/-- **C135**, refusals: a refusal for parsed files names a reason which is true, and changes nothing; the daemon
ends with an exception only if a pipeline with a job is not in its configuration. -/
theorem C135_reason (w : World) (d : Daemon) (s : Settings) (df : DeviceFile) (hd : d.status ≠ .bootstrap)
    (hn : NamesMatch d.devicefile) (ho : CompsMatch d.devicefile) (hcl : Complete d.devicefile)
    (hc : CompsMatch (Daemon.build d.status s df).devicefile)
    (hb : ∀ n, Busy w n → (Dict.get? d.devicefile.pipelines n).isSome) :
    ∃ rep d', runW (cmdReload d (some (s, df))) w = (.ok (rep, d'), w) ∧
      (rep.success = false → d' = d ∧ Reason w d.devicefile (Daemon.build d.status s df).devicefile rep.msg) := by
  obtain ⟨h1, h2⟩ := outcomes w d s df hd hn ho hc
  rcases hr : runW (cmdReload d (some (s, df))) w with ⟨r, w'⟩
  rw [hr] at h1 h2
  cases h1
  rcases r with e | ⟨rep, d'⟩
  · rcases h2 with ⟨n, hbn, he⟩ | h2
    · have := hb n hbn
      rw [he] at this; cases this
    · exact absurd hcl h2
  · refine ⟨rep, d', rfl, fun hf => ?_⟩
    rcases h2 with ⟨h3, -⟩ | ⟨-, h4, h5⟩
    · rw [hf] at h3; cases h3
    · exact ⟨h4, h5⟩

/-- **C135**, unchanged files: if the daemon runs with what is in its files, a reload is accepted, whatever jobs are
running, and changes nothing at all. -/
theorem C135_unchanged (w : World) (d : Daemon) (s : Settings) (df : DeviceFile) (hd : d.status ≠ .bootstrap)
    (hn : NamesMatch d.devicefile) (ho : CompsMatch d.devicefile) (hcl : Complete d.devicefile)
    (hb : ∀ n, Busy w n → (Dict.get? d.devicefile.pipelines n).isSome)
    (hs : d = Daemon.build d.status s df) :
    ∃ rep, runW (cmdReload d (some (s, df))) w = (.ok (rep, d), w) ∧ rep.success = true := by
  obtain ⟨rep, h1, h2, -⟩ := C135_accepted w d s df hd hn ho hcl (by rw [← hs]; exact ho) (by
    rw [← hs]
    intro n hbn
    obtain ⟨p, hp⟩ := Option.isSome_iff_exists.mp (hb n hbn)
    refine ⟨p, p, hp, hp, fun _ => rfl, fun c hc => ?_⟩
    obtain ⟨x, hx⟩ := Option.isSome_iff_exists.mp (hcl.1 n p hp c hc)
    obtain ⟨dr, hdr⟩ := Option.isSome_iff_exists.mp (hcl.2 c x hx)
    exact ⟨x, x, dr, dr, hx, hx, rfl, rfl, rfl, hdr, hdr, fun _ => rfl⟩)
  rw [← hs] at h1
  exact ⟨rep, h1, h2⟩

/-- **C135**, answer: a reload which is accepted, also the first one, answers with the daemon as it is from now on. -/
theorem C135_answer (w : World) (d : Daemon) (parsed : Option (Settings × DeviceFile)) (rep : CReply) (d' : Daemon)
    (h : (runW (cmdReload d parsed) w).1 = .ok (rep, d')) (hs : rep.success = true) :
    rep.data = some (.daemon d') := by
  revert h
  unfold cmdReload
  split
  · simp only [runW, Prog.bind_eq, Prog.run_bind]
    generalize Prog.run exec (bootstrapDrivers (Dict.keys d.devicefile.drivers)) w = r
    rcases r with ⟨_ | _, w1⟩
    · rintro ⟨⟩
    simp only [Prog.andThen_ok]
    generalize Prog.run exec (bootstrapPipelines (Dict.keys d.devicefile.pipelines)) w1 = r
    rcases r with ⟨_ | _, w2⟩
    · rintro ⟨⟩
    rintro ⟨⟩; rfl
  cases parsed with
  | none => rintro ⟨⟩; cases hs
  | some p =>
    simp only [runW, Prog.bind_eq, Prog.run_bind, Do.run_pipsWhere, exec_pipsWhere, Prog.andThen_ok]
    generalize Prog.run exec (checkPipelines _ _ _ _) w = r
    rcases r with ⟨_ | (_ | cs), w1⟩
    · rintro ⟨⟩
    · rintro ⟨⟩; cases hs
    simp only [Prog.andThen_ok, Prog.run_bind]
    generalize Prog.run exec (checkComponents _ _ cs _) w1 = r
    rcases r with ⟨_ | (_ | ds), w2⟩
    · rintro ⟨⟩
    · rintro ⟨⟩; cases hs
    simp only [Prog.andThen_ok, Prog.run_bind]
    generalize Prog.run exec (checkDrivers _ _ ds) w2 = r
    rcases r with ⟨_ | (_ | _), w3⟩
    · rintro ⟨⟩
    · rintro ⟨⟩; rfl
    · rintro ⟨⟩; cases hs

/-- Drivers are still there when the settings are merged. -/
theorem get?_merge (s : Settings) (df : DeviceFile) (n : String) (h : (Dict.get? df.drivers n).isSome) :
    (Dict.get? (mergeDriverSettings s df).drivers n).isSome := by
  unfold mergeDriverSettings
  simp only
  generalize df.drivers = l at h
  induction l with
  | nil => cases h
  | cons kv l ih =>
    obtain ⟨k, v⟩ := kv
    by_cases hk : k = n
    · subst hk
      cases hs : Dict.get? s.drivers k <;> simp [Dict.get?, hs]
    · simp only [Dict.get?, hk, if_false] at h
      have := ih h
      cases hs : Dict.get? s.drivers k <;> simpa [Dict.get?, hs, hk] using this

/-- The hypotheses hold for every device file that was read, with any settings. -/
theorem parsed_ok (raw : RawFile) (df : DeviceFile) (h : populateAttrs raw = .ok df) (st : DaemonStatus)
    (s : Settings) : NamesMatch (Daemon.build st s df).devicefile ∧ CompsMatch (Daemon.build st s df).devicefile ∧
      Complete (Daemon.build st s df).devicefile := by
  obtain ⟨h1, h2, -⟩ := namesMatch_parsed raw df h
  obtain ⟨h3, h4⟩ := C32_closed raw df h
  refine ⟨h1, h2, fun n p hp c hc => ?_, fun n c hc => ?_⟩
  · obtain ⟨rc, hrc, rfl⟩ := List.mem_map.mp hc
    obtain ⟨x, hx⟩ := h3 n p hp rc hrc
    show (Dict.get? df.components rc.2).isSome = true
    rw [hx]; rfl
  · obtain ⟨-, drv, hdrv, -⟩ := h4 n c hc
    exact get?_merge s df _ (by rw [hdrv]; rfl)

/-- **C135** for files: a daemon that runs with settings and a device file which were read accepts any others that can
be read, exactly if the pipelines with a job are configured as before. -/
theorem C135_files (w : World) (st : DaemonStatus) (hst : st ≠ .bootstrap) (s s' : Settings) (raw raw' : RawFile)
    (df df' : DeviceFile) (h : populateAttrs raw = .ok df) (h' : populateAttrs raw' = .ok df') :
    (∃ rep d', (runW (cmdReload (Daemon.build st s df) (some (s', df'))) w).1 = .ok (rep, d') ∧ rep.success = true) ↔
      ∀ n, Busy w n → SamePipeline (Daemon.build st s df).devicefile (Daemon.build st s' df').devicefile n := by
  obtain ⟨h1, h2, h3⟩ := parsed_ok raw df h st s
  exact C135_exact w _ s' df' hst h1 h2 h3 (parsed_ok raw' df' h' st s').2.1

theorem match_of_list {V : Type} {d : Dict String V} {name : V → String} (h : ∀ kv ∈ d, name kv.2 = kv.1) (k : String)
    (v : V) (hk : Dict.get? d k = some v) : name v = k := h _ (Dict.get?_some_mem hk)

/-- The other hypotheses for the configurations of the example of C27. -/
example : NamesMatch dfA ∧ CompsMatch dfA ∧ Complete dfA ∧ CompsMatch (Daemon.build .running {} dfB).devicefile := by
  refine ⟨match_of_list (by decide), match_of_list (by decide), ⟨fun n p hp => ?_, fun n c hc => ?_⟩,
    match_of_list (by decide)⟩
  · have h := Dict.get?_some_mem hp
    simp only [dfA, List.mem_cons, List.not_mem_nil, or_false, Prod.mk.injEq] at h
    rw [h.2]; decide
  · have h := Dict.get?_some_mem hc
    simp only [dfA, List.mem_cons, List.not_mem_nil, or_false, Prod.mk.injEq] at h
    rcases h with ⟨-, rfl⟩ | ⟨-, rfl⟩ <;> rfl

/-- A busy pipeline, a reload which adds another one, and the refusals: a reload without the busy pipeline. -/
example : Busy wBusy "p" ∧
    (∀ n, Busy wBusy n → SamePipeline dfA (Daemon.build .running {} dfB).devicefile n) ∧
    (∃ rep d', (runW (cmdReload { devicefile := dfA } (some ({}, { dfA with pipelines := [] }))) wBusy).1 =
      .ok (rep, d') ∧ rep.msg = .deletesPipeline) := by
  refine ⟨⟨_, List.mem_singleton.mpr rfl, rfl, rfl⟩, ?_, _, _, rfl, rfl⟩
  rintro n ⟨ps, hps, rfl, -⟩
  rw [List.mem_singleton.mp hps]
  refine ⟨_, _, rfl, rfl, fun _ => rfl, ?_⟩
  intro c hc
  simp only [Dict.values, List.map_cons, List.map_nil, List.mem_cons, List.not_mem_nil, or_false] at hc
  rcases hc with rfl | rfl <;> exact ⟨_, _, _, _, rfl, rfl, rfl, rfl, rfl, rfl, rfl, fun _ => rfl⟩

end Tomato.Props.Reload
