import Verif.Cmd
import Verif.Cli
import Verif.JobMgr
import Verif.DriverMgr
import Verif.DeviceFile
import Verif.Status
import Verif.Passata
import Verif.Validate
import Verif.JobProc
import Verif.DriverProc
import Verif.EndToEnd

/-!
# The tests of the project, replayed on the model

Not proofs, but checks of the model: the scenarios of `/repo/tests`, with the outcomes which these tests
expect of the program, computed by the model.  A wrong model of one of the functions involved would make
one of these examples fail.  Where a test waits for a manager, one or two passes of that manager are
executed; where it waits for a job, the job process is executed.
-/

namespace Tomato.RepoTests

open Tomato

/-! ## Configuration -/

/-- The devices file written by `tomato init`, tomato/__init__.py:430-444. -/
def rawDefault : RawFile where
  devices := [⟨"dev-counter", "example_counter", "example-addr", ["1"], 1⟩]
  pipelines := [⟨"pip-counter", [⟨"counter", "dev-counter", "1"⟩]⟩]

/-- tests/common/devices_counter.json -/
def rawCounter : RawFile where
  devices := [⟨"dev-counter", "example_counter", "example-addr", ["1", "2", "3", "4"], 2⟩]
  pipelines := [⟨"pip-counter-*", [⟨"counter", "dev-counter", "each"⟩]⟩]

/-- tests/common/devices_multidev.json -/
def rawMultidev : RawFile where
  devices := [⟨"dev-counter-1", "example_counter", "example-addr-1", ["1", "2", "3", "4"], 2⟩,
              ⟨"dev-counter-2", "example_counter", "example-addr-2", ["5", "6", "7", "8"], 1⟩]
  pipelines := [⟨"pip-counter", [⟨"counter", "dev-counter-1", "1"⟩]⟩,
                ⟨"pip-multidev", [⟨"counter-1", "dev-counter-1", "4"⟩, ⟨"counter-2", "dev-counter-2", "5"⟩]⟩]

/-- tests/common/devices_psutil.json -/
def rawPsutil : RawFile where
  devices := [⟨"dev-counter", "example_counter", "counter-addr", ["1"], 1⟩,
              ⟨"dev-psutil", "psutil", "psutil-addr", ["10"], 1⟩]
  pipelines := [⟨"pip-multidev", [⟨"counter", "dev-counter", "1"⟩, ⟨"psutil", "dev-psutil", "10"⟩]⟩]

/-- tests/common/devices_reload_address.json -/
def rawAddress : RawFile where
  devices := [⟨"dev-counter", "example_counter", "example-addr-new", ["1"], 1⟩]
  pipelines := [⟨"pip-counter", [⟨"counter", "dev-counter", "1"⟩]⟩]

/-- tests/common/devices_reload_channel.json -/
def rawChannel : RawFile where
  devices := [⟨"dev-counter", "example_counter", "example-addr", ["2"], 1⟩]
  pipelines := [⟨"pip-counter", [⟨"counter", "dev-counter", "2"⟩]⟩]

/-- tests/common/devices_reload_driver.json -/
def rawDriver : RawFile where
  devices := [⟨"dev-counter", "psutil", "example-addr", ["2"], 1⟩]
  pipelines := [⟨"pip-counter", [⟨"counter", "dev-counter", "2"⟩]⟩]

/-- tests/common/devices_reload_pipdel.json -/
def rawPipdel : RawFile where
  devices := [⟨"dev-counter", "example_counter", "example-addr", ["1"], 1⟩]
  pipelines := [⟨"pip-counter-new", [⟨"counter", "dev-counter", "1"⟩]⟩]

/-- tests/common/devices_reload_pipmod.json -/
def rawPipmod : RawFile where
  devices := [⟨"dev-counter", "example_counter", "example-addr", ["1"], 1⟩,
              ⟨"new-counter", "example_counter", "new-addr", ["1"], 1⟩]
  pipelines := [⟨"pip-counter", [⟨"counter", "dev-counter", "1"⟩, ⟨"other", "new-counter", "1"⟩]⟩]

/-- The parsed file. -/
def file (r : RawFile) : DeviceFile :=
  match populateAttrs r with
  | .ok df => df
  | .error _ => {}

/-- The settings written by `tomato init`, tomato/__init__.py:400-424. -/
def settings0 : Settings :=
  { drivers := [("example_counter", [("idle_measurement_interval", "1"), ("lpp_timeout", "2")])] }

/-- The settings after the line `example_counter.testparb = 1` has been added. -/
def settingsB : Settings :=
  { drivers := [("example_counter",
      [("idle_measurement_interval", "1"), ("lpp_timeout", "2"), ("testparb", "1")])] }

/-- The numbers of drivers, devices, pipelines and components. -/
def sizes (df : DeviceFile) : Nat × Nat × Nat × Nat :=
  (df.drivers.length, df.devices.length, df.pipelines.length, df.components.length)

/-- test_reload_noop, test_reload_cmps_pips, test_reload_devs, test_reload_drvs: the sizes of the
files. -/
example : sizes (file rawDefault) = (1, 1, 1, 1) ∧ sizes (file rawCounter) = (1, 1, 4, 4) ∧
    sizes (file rawMultidev) = (1, 2, 2, 3) ∧ sizes (file rawPsutil) = (2, 2, 1, 2) := by
  decide +kernel

/-! ## A daemon and its driver -/

/-- The driver of the tests: it knows `count` and `random`, and rejects tasks whose `body` is not 0
(these stand for the parameters of the invalid payloads). -/
def counter : Nat → DrvCmd → Option DrvReply := fun port cmd =>
  if port = 9000 then
    match cmd with
    | .capabilities a c =>
      some (if (a, c) = ("example-addr", "1") then ⟨true, some ["count", "random"]⟩ else ⟨false, none⟩)
    | .validate t a c => some ⟨decide ((a, c) = ("example-addr", "1")) && decide (t.body = 0), none⟩
    | .reset _ _ => some ⟨true, none⟩
    | .status => some ⟨true, some ["('example-addr', '1')"]⟩
    | .register => some ⟨true, none⟩
    | .stop => some ⟨true, none⟩
  else none

/-- The daemon before its first reload. -/
def daemon0 : Daemon := Daemon.build .bootstrap settings0 (file rawDefault)

/-- The running daemon. -/
def daemon1 : Daemon := { daemon0 with status := .running }

/-- Run a program, keep the world. -/
def thenW {α : Type} (w : World) (p : P α) : World := (runW p w).2

/-- The fixture `start_tomato_daemon`, tests/conftest.py:33-48: set up the database, start the driver
process, wait for the driver and its components. -/
def world0 : World :=
  let w : World := { clock := 1000, perf := 100000, drv := counter }
  let w := thenW w (cmdReload daemon0 none)
  let w := thenW w (drvManagerPass daemon1)
  let w := thenW w (driverStart "example_counter" 9000 4711 "2.1")
  thenW w (drvManagerPass daemon1)

/-- What became of the fixture: the driver has been started once and is on record, the pipeline is
there. -/
example : world0.spawns.map (·.1) = ["example_counter"] ∧
    world0.drvs.map (fun d => (d.name, d.port, d.pid, d.version)) =
      [("example_counter", some 9000, some 4711, some "2.1")] ∧
    world0.pips = [{ name := "pip-counter" }] := by
  decide +kernel

/-- A plain way to show things; the tests do not look at it. -/
def sh : Stat.Show := ⟨fun _ _ => "", fun _ _ => "", fun _ _ => "", fun _ _ => ""⟩

/-- The success of a reply (`none`: an exception). -/
def ok {M D : Type} (r : Except PyErr (Reply M D)) : Option Bool :=
  match r with
  | .ok x => some x.success
  | .error _ => none

/-- The message of a reply. -/
def msg {M D : Type} (r : Except PyErr (Reply M D)) : Option M :=
  match r with
  | .ok x => some x.msg
  | .error _ => none

/-- The data of a reply. -/
def data {M D : Type} (r : Except PyErr (Reply M D)) : Option D :=
  match r with
  | .ok x => x.data
  | .error _ => none

/-! ## tests/test_01_tomato.py -/

/-- test_tomato_status_down -/
example : msg (runW (Stat.status sh none "tomato" true) world0).1 = some .notRunning := by decide +kernel

/-- test_tomato_status_up -/
example : ok (runW (Stat.status sh (some daemon1) "tomato" true) world0).1 = some true ∧
    daemon1.devicefile.pipelines.length = 1 := by decide +kernel

/-- test_tomato_pipeline: load, load again, ready, ready again, eject, eject again. -/
def afterPipeline : List (Option Bool × Option PMsg × Option (Option String × Bool)) :=
  let cmds : List (P PReply) :=
    [pipelineLoad (some daemon1) "pip-counter" "test", pipelineLoad (some daemon1) "pip-counter" "abcdefg",
     pipelineReady (some daemon1) "pip-counter", pipelineReady (some daemon1) "pip-counter",
     pipelineEject (some daemon1) "pip-counter", pipelineEject (some daemon1) "pip-counter"]
  (cmds.foldl (fun (acc : World × List _) p =>
    let r := runW p acc.1
    (r.2, acc.2 ++ [(ok r.1, msg r.1, (data r.1).map (fun x => (x.sampleid, x.ready)))])) (world0, [])).2

example : afterPipeline =
    [(some true, some .loaded, some (some "test", false)),
     (some false, some .notEmpty, some (some "test", false)),
     (some true, some .setReady, some (some "test", true)),
     (some true, some .alreadyReady, some (some "test", true)),
     (some true, some .ejected, some (none, false)),
     (some true, some .alreadyEmpty, some (none, false))] := by decide +kernel

/-- test_tomato_pipeline_invalid -/
example : msg (runW (pipelineLoad (some daemon1) "bogus" "test") world0).1 = some .notFound ∧
    msg (runW (pipelineEject (some daemon1) "bogus") world0).1 = some .notFound ∧
    msg (runW (pipelineReady (some daemon1) "bogus") world0).1 = some .notFound := by decide +kernel

/-- test_tomato_nocmd: the message without `cmd`; the daemon goes on. -/
example : (match (runW (serve ⟨daemon1, none⟩ [.noCmd, .status]) world0).1 with
    | .ok (rs, l) => some (rs.map (·.msg), l.daemon.status)
    | .error _ => none) = some ([.withoutCmd, .status .running], .running) := by decide +kernel

/-- test_tomato_stop -/
example : (match (runW (cmdStop daemon1) world0).1 with
    | .ok (r, d) => some (r.success, d.status)
    | .error _ => none) = some (true, .stop) := by decide +kernel

/-- test_tomato_component: a registered component answers, another one is refused. -/
example :
    let i : Drv.Iface := { ver := .v21, devmap := [("example-addr", "1")] }
    (Drv.handle i (.component { key := some ("example-addr", "1") } (.reply true))).2.1 = .answered true ∧
    (Drv.handle i (.component { key := some ("example-addr", "2") } (.reply true))).2.1 = .answered false := by
  decide +kernel

/-! ## tests/test_02_ketchup.py -/

/-- A payload with one task for the role `counter`; `body` is 0 for valid parameters. -/
def payload (sample technique : String) (body : Nat := 0) : Payload :=
  { sample := sample, method := [{ role := "counter", technique := technique, body := body }] }

/-- `ketchup.submit` in the folder `/tmp`, a moment later. -/
def submitted (w : World) (p : Payload) (jobname : Option String := none) : World :=
  let w := thenW w (submit (.parsed p) jobname daemon1 "/tmp")
  { w with clock := w.clock + 1 }

/-- A pass of the job manager. -/
def jmPass (w : World) : World := thenW w (jobManagerPass daemon1)

/-- The statuses of the jobs. -/
def statuses (w : World) : List (Nat × JobStatus) := w.jobs.map (fun j => (j.id, j.status))

/-- test_ketchup_submit_one -/
example : [none, some "counter"].map (fun jn =>
      (match (runW (submit (.parsed (payload "counter_1_0.1" "count")) jn daemon1 "/tmp") world0).1 with
      | .ok r => (r.success, r.msg)
      | .error _ => (false, .searchNone))) =
    [(true, KMsg.submitted 1 none), (true, KMsg.submitted 1 (some "counter"))] ∧
    statuses (jmPass (submitted world0 (payload "counter_1_0.1" "count"))) = [(1, .qw)] := by
  decide +kernel

/-- Two jobs, after a pass of the job manager. -/
def twoJobs : World :=
  jmPass (submitted (submitted world0 (payload "counter_1_0.1" "count") (some "job-1"))
    (payload "counter_5_0.2" "count") (some "job-2"))

/-- test_ketchup_submit_two, test_ketchup_status_empty, test_ketchup_status_all_queued,
test_ketchup_status_one_queued, test_ketchup_status_two_queued -/
example : statuses twoJobs = [(1, .qw), (2, .qw)] ∧
    msg (runW (status []) world0).1 = some .queueEmpty ∧
    msg (runW (status []) twoJobs).1 = some (.foundMany [(.qw, [1, 2])]) ∧
    msg (runW (status [2]) twoJobs).1 = some (.foundOne [.qw]) ∧
    (match data (runW (status [2]) twoJobs).1 with | some (.jobs js) => js.map (·.id) | _ => []) = [2] ∧
    (match data (runW (status [1, 2]) twoJobs).1 with | some (.jobs js) => js.map (·.id) | _ => []) =
      [1, 2] := by
  decide +kernel

/-- `utils.run_casenames`, tests/utils.py:12-28: load, ready, submit. -/
def casename (p : Payload) : World :=
  let w := thenW world0 (pipelineLoad (some daemon1) "pip-counter" p.sample)
  let w := thenW w (pipelineReady (some daemon1) "pip-counter")
  submitted w p

/-- The process of job 1 up to its main loop. -/
def connect (w : World) (p : Payload) : World :=
  let w := { w with procs := w.procs ++ [⟨500, 1, false⟩, ⟨501, 500, false⟩] }
  let w := thenW w (jobConnect 1 500)
  thenW w (jobPaths 1 (fillPaths p "/tmp") "Jobs/1")

/-- The job is running. -/
def running : World :=
  connect (jmPass (casename (payload "counter_5_0.2" "count"))) (payload "counter_5_0.2" "count")

/-- test_ketchup_status_running -/
example : (running.launches, running.pips) =
      ([⟨1, "pip-counter"⟩], [{ name := "pip-counter", jobid := some 1, sampleid := some "counter_5_0.2" }]) ∧
    msg (runW (status [1]) running).1 = some (.foundOne [.r]) := by
  decide +kernel

/-- The whole job process, with `ret` as the result of its main loop. -/
def jobRun (w : World) (p : Payload) (ret : Option Nat) : World :=
  let w := { w with procs := w.procs ++ [⟨500, 1, false⟩] }
  let w := thenW w (tomatoJob 1 500 (fillPaths p "/tmp") "pip-counter" "Jobs/1" (pure ret))
  { w with procs := [] }

/-- The job is complete. -/
def complete : World :=
  jobRun (jmPass (casename (payload "counter_1_0.1" "count"))) (payload "counter_1_0.1" "count") none

/-- test_ketchup_status_complete -/
example : msg (runW (status [1]) complete).1 = some (.foundOne [.c]) ∧
    complete.merged = [(1, "/tmp/results.1.nc")] := by decide +kernel

/-- test_ketchup_cancel_running, test_counter_cancel: first `rd`, then, after a pass, `cd`; the data is
merged. -/
def cancelled : Except PyErr KReply × World :=
  let r := runW (cancel [1]) running
  (r.1, jmPass r.2)

example : (match data cancelled.1 with | some (.jobs js) => js.map (·.status) | _ => []) = [.rd] ∧
    msg (runW (status [1]) cancelled.2).1 = some (.foundOne [.cd]) ∧
    cancelled.2.merged = [(1, "/tmp/results.1.nc")] := by decide +kernel

/-- test_ketchup_cancel_queued: the sample is there, but the pipeline is not ready. -/
example :
    (let w := submitted world0 (payload "counter_60_0.1" "count")
     let w := thenW w (pipelineLoad (some daemon1) "pip-counter" "counter_60_0.1")
     let w := jmPass w
     (statuses w, match data (runW (cancel [1]) w).1 with | some (.jobs js) => js.map (·.status) | _ => [])) =
    ([(1, .qw)], [.cd]) := by decide +kernel

/-- test_ketchup_snapshot -/
example : (let r := runW (snapshot [1]) running
    (ok r.1, r.2.merged)) = (some true, [(1, "snapshot.1.nc")]) := by decide +kernel

/-- test_ketchup_search -/
example : msg (runW (search "2") twoJobs).1 = some (.searchFound [2]) ∧
    msg (runW (search "job") twoJobs).1 = some (.searchFound [1, 2]) ∧
    msg (runW (search "wrong") twoJobs).1 = some .searchNone := by decide +kernel

/-- test_ketchup_validation: an unknown technique, and parameters that the driver rejects, are accepted
by `submit`, but the job never gets a pipeline. -/
example : [payload "counter_invalid_1" "unknown", payload "counter_invalid_2" "count" 1].map (fun p =>
      let w := submitted world0 p
      (statuses (jmPass w), statuses (jmPass (jmPass w)))) =
    [([(1, .q)], [(1, .q)]), ([(1, .q)], [(1, .q)])] := by decide +kernel

/-- test_ketchup_validation: why the driver rejects the parameters.  `param` of the counter is a number
with a physical unit other than time; `conv` does what `pint` does. -/
def conv : Ty → Val → Except PyErr Val
  | .qty, .str "1 ms" => .ok (.qty (.fin 1) ⟨"time", 1⟩)
  | .qty, .str _ => .error .undefinedUnit
  | _, v => .ok v

example : ["wrong type", "1 ms"].map (fun v =>
      (match taskValidate conv ["count"] [("param", { type := .qty, rw := true, units := some ⟨"volt", 1⟩ })]
          "count" (some [("param", some (.str v))]) with
      | .ok m => some m
      | .error _ => none)) = [some (.noCoerce "param"), some (.wrongDim "param")] ∧
    (match taskValidate conv ["count"] [] "count" (some [("unknown", some (.str "bla"))]) with
      | .ok m => some m
      | .error _ => none) = some (.unknownAttr "unknown") := by decide +kernel

/-! ## tests/test_03_state.py -/

/-- A restarted daemon: the first reload of a new process, on the database as it is. -/
def restarted (w : World) : World := thenW w (cmdReload daemon0 none)

/-- test_stop_with_queued_jobs: all jobs are still there after a restart. -/
example : ok ((runW (cmdStop daemon1) twoJobs).1.map (·.1)) = some true ∧
    (match data (runW (status []) (restarted twoJobs)).1 with | some (.jobs js) => js.length | _ => 0) = 2 := by
  decide +kernel

/-- test_stop_with_running_jobs -/
example : (match (runW (cmdStop daemon1) running).1 with
    | .ok (r, d) => some (r.success, r.msg, d.status)
    | .error _ => none) = some (false, .jobsRunning 1, .running) := by decide +kernel

/-- test_restart_with_running_jobs: the daemon is killed and started again; the job is still running,
and completes. -/
example : statuses (jmPass (restarted running)) = [(1, .r)] ∧
    (let w := jmPass (restarted running)
     let j := w.job? 1
     match j with
     | some j => statuses (thenW w (jobFinish j "pip-counter" none))
     | none => []) = [(1, .c)] := by decide +kernel

/-- test_restart_with_complete_jobs: the job completes without a daemon. -/
example : statuses (jmPass (restarted complete)) = [(1, .c)] ∧
    (restarted complete).pips = [{ name := "pip-counter", sampleid := some "counter_1_0.1" }] := by
  decide +kernel

/-- test_restart_with_crashed_jobs: the process of the job is gone; the job is recorded as failed, the
pipeline is released, the sample stays. -/
example :
    (let w := jmPass (restarted { running with procs := [] })
     let w := thenW w (pipManagerPass daemon1)
     (statuses w, w.pips)) =
    ([(1, .ce)], [{ name := "pip-counter", sampleid := some "counter_5_0.2" }]) := by decide +kernel

/-- test_crashed_driver_restarts: the driver does not answer any more; it is taken off the record, and
started again. -/
def driverGone : World :=
  let w := { world0 with drv := fun _ _ => none, perf := world0.perf + 6000 }
  let w := thenW w (drvManagerPass daemon1)
  let w := thenW w (drvManagerPass daemon1)
  thenW w (driverStart "example_counter" 9001 4712 "2.1")

example : driverGone.spawns.map (·.1) = ["example_counter", "example_counter"] ∧
    driverGone.drvs.map (fun d => (d.port, d.pid)) = [(some 9001, some 4712)] := by decide +kernel

/-- test_crashed_driver_with_jobs: a thread whose driver does not answer crashes, the job ends with an
error (`Verif/JobThread.lean`). -/
example :
    (let task : Task := { role := "counter", technique := "count" }
     let idle : JobT.SD := ⟨false, true, some none⟩
     let busy : JobT.SD := ⟨true, false, some (some task)⟩
     let t (a : JobT.Ans) : JobT.Act := .thr 0 { ans := a, due := true }
     match JobT.run (JobT.Jb.init [[task]])
       ([t .closed, t .closed, t .closed, t (.reply true (some idle) none), t .closed,
         t (.reply true none none), t .closed, t (.reply true (some busy) none), t .closed, t .closed,
         -- the driver has gone
         t .closed, t .closed] ++ List.replicate 8 JobT.Act.main) with
     | some (s, _) => some s.main
     | none => none) = some (.done true) := by decide +kernel

/-- The record of such a job. -/
example : statuses (jobRun (jmPass (casename (payload "counter_5_0.2" "count")))
    (payload "counter_5_0.2" "count") (some 1)) = [(1, .ce)] := by decide +kernel

/-! ## tests/test_04_tomato_reload.py -/

/-- `tomato reload`, with these files. -/
def reload (d : Daemon) (w : World) (s : Settings) (r : RawFile) : Option (Bool × CMsg × Daemon) :=
  match (runW (cmdReload d (some (s, file r))) w).1 with
  | .ok (r, d') => some (r.success, r.msg, d')
  | .error _ => none

/-- test_reload_noop, test_reload_cmps_pips, test_reload_devs -/
example : [rawDefault, rawCounter, rawMultidev].map (fun r =>
      (reload daemon1 world0 settings0 r).map (fun r => (r.1, sizes r.2.2.devicefile))) =
    [some (true, 1, 1, 1, 1), some (true, 1, 1, 4, 4), some (true, 1, 2, 2, 3)] := by decide +kernel

/-- test_reload_settings -/
example : (reload daemon1 world0 settingsB rawDefault).map (fun r =>
      (r.1, (Dict.get? r.2.2.devicefile.drivers "example_counter").bind
        (fun d => Dict.get? d.settings "testparb"))) = some (true, some "1") := by decide +kernel

/-- test_reload_drvs -/
example : (reload daemon1 world0 settings0 rawPsutil).map (fun r => (r.1, sizes r.2.2.devicefile)) =
      some (true, 2, 2, 1, 2) ∧
    ((reload daemon1 world0 settings0 rawPsutil).bind (fun r =>
        reload r.2.2 world0 settings0 rawCounter)).map (fun r => (r.1, sizes r.2.2.devicefile)) =
      some (true, 1, 1, 4, 4) := by decide +kernel

/-- test_reload_running: what a reload may not do while the pipeline is in use. -/
example : (reload daemon1 running settingsB rawDefault).map (fun r => (r.1, r.2.1)) =
      some (false, .modifiesDriver) ∧
    (reload daemon1 running settings0 rawDefault).map (fun r => (r.1, r.2.1)) = some (true, .reloaded) ∧
    (reload daemon1 running settings0 rawDriver).map (fun r => (r.1, r.2.1)) =
      some (false, .modifiesPipeline) ∧
    (reload daemon1 running settings0 rawChannel).map (fun r => (r.1, r.2.1)) =
      some (false, .modifiesPipeline) ∧
    (reload daemon1 running settings0 rawAddress).map (fun r => (r.1, r.2.1)) =
      some (false, .modifiesPipeline) ∧
    (reload daemon1 running settings0 rawPipdel).map (fun r => (r.1, r.2.1)) =
      some (false, .deletesPipeline) ∧
    (reload daemon1 running settings0 rawPipmod).map (fun r => (r.1, r.2.1)) =
      some (false, .modifiesPipeline) := by decide +kernel

/-! ## tests/test_05_passata.py -/

/-- The environment of `passata`: the daemon and its driver; the component is busy or not, and `max` has
this value. -/
def penv (busy : Bool) (max : Int) : Passata.Env where
  daemon := fun _ => some daemon1
  drv := fun _ n => world0.drvs.find? (fun d => d.name == n)
  ans := fun _ r => match r.cmd with
    | .status => some ⟨true, some (.status (some busy))⟩
    | .getAttr "max" => some ⟨true, some (.val max)⟩
    | .getAttr "min" => some ⟨true, some (.val 0)⟩
    | .setAttr _ v => some ⟨true, some (.val v)⟩
    | .measure => some ⟨!busy, none⟩
    | _ => some ⟨true, some (.val 1)⟩

/-- Run a command of `passata`. -/
def prun (p : Prog Passata.PSig Passata.PReply) (busy : Bool) (max : Int := 10) :
    Option (Bool × Passata.PMsg × Option Passata.PData) :=
  match (Prog.run Passata.exec p (penv busy max)).1 with
  | .ok r => some (r.success, r.msg, r.data)
  | .error _ => none

/-- The component of the tests. -/
def cname : String := "example_counter:(example-addr,1)"

/-- test_passata_api_status, _attrs, _capabs, _constants, _reset -/
example : prun (Passata.status cname) false = some (true, .fromDriver, some (.raw (.status (some false)))) ∧
    (prun (Passata.simple .attrs cname) false).map (·.1) = some true ∧
    (prun (Passata.simple .capabilities cname) false).map (·.1) = some true ∧
    (prun (Passata.simple .constants cname) false).map (·.1) = some true ∧
    (prun (Passata.reset cname false) false).map (·.1) = some true := by decide +kernel

/-- test_passata_api_get_attrs, test_passata_api_set_attr -/
example : prun (Passata.getAttrs cname ["max", "min"]) false 10 =
      some (true, .retrieved, some (.attrs [("max", some (.val 10)), ("min", some (.val 0))])) ∧
    prun (Passata.setAttr cname "max" 42 false) false = some (true, .fromDriver, some (.raw (.val 42))) ∧
    prun (Passata.getAttrs cname ["max"]) false 42 =
      some (true, .retrieved, some (.attrs [("max", some (.val 42))])) := by decide +kernel

/-- test_passata_api_force, test_passata_api_reset_force -/
example : (prun (Passata.setAttr cname "max" 15 false) true).map (fun r => (r.1, r.2.1)) =
      some (false, .isRunning) ∧
    prun (Passata.setAttr cname "max" 15 true) true = some (true, .fromDriver, some (.raw (.val 15))) ∧
    (prun (Passata.reset cname true) true).map (·.1) = some true := by decide +kernel

/-! ## tests/test_99_example_counter.py and tests/test_99_psutil.py -/

/-- A task of the counter: `n` points are measured, then the duration is over. -/
def task (n : Nat) : List I21.Act :=
  List.replicate 7 (.worker {}) ++
  (List.range n).flatMap (fun i => List.replicate 7 (.worker { result := some (some [i]) }) ++
    [.worker { over := i + 1 == n }]) ++ List.replicate 3 (.worker {})

/-- The measurement asked for by `passata.measure`. -/
def one : List I21.Act := [.cmd .measure, .cont, .cont] ++ List.replicate 7 (.worker {})

/-- test_counter_measure_task_measure: a measurement is accepted before the task, refused while the task
is running, and accepted again afterwards. -/
example : (I21.run I21.Dev.init
      (one ++ [.cmd (.start 1)] ++ List.replicate 6 (.worker {}) ++ [.cmd .measure] ++
        (task 2).drop 6 ++ one)).map
      (fun r => (r.2.filter (fun e => e == .mAccepted || e == .mRefused || e == .ended 1), r.1.running)) =
    some ([.mAccepted, .mRefused, .ended 1, .mAccepted], none) := by decide +kernel

/-- test_counter_npoints_metadata: the number of points of a task arrives. -/
example : [1, 5, 20].map (fun n =>
      (I21.run I21.Dev.init ([.cmd (.start 1)] ++ task n ++ [.cmd .stop, .cont, .cont, .cont, .cont])).map
        (fun r => r.2.getLast?)) =
    [1, 5, 20].map (fun n => some (some (.replied (some (List.range n))))) := by decide +kernel

end Tomato.RepoTests
