# Formal model of tomato: design

Subject: `dgbowl/tomato`, sources under `/repo/src/tomato`, read as text (nothing
was executed).  The properties are listed in `properties.jsonl` (C01, C02, ...).
The model and the proofs are the Lean 4 project in `lean/`.  `MANIFEST.json` maps
every property to the theorems that settle it.

## 1. Approach

The python functions are transcribed branch by branch.

* **Programs.**  Code that talks to the database, the operating system or other
  processes is written in a small free monad `Prog S α` (`Verif/Prog.lean`): a
  program returns, raises a python exception (`PyErr`), or performs one
  operation and continues with the answer.  One operation is one atomic effect:
  one sqlite transaction, one `psutil` query, one zmq request.  The same program
  text is used in three ways:
  1. `run`: executed without interference (one complete command);
  2. `Sys`: executed interleaved with any number of other programs, one operation
     at a time, in any order, with crashes (a program is never scheduled again)
     at any point;
  3. `wlp`-style trace semantics: executed against an environment that may
     answer anything (used for job threads talking to drivers).
* **State machines.**  Code made of two threads sharing fields (the device worker
  of the driver interface) is a transition system; properties are invariants by
  induction over all step sequences.
* **Pure functions.**  Parsers, validation, string formatting.
* **Exceptions are values.**  Assertion failures, `KeyError`, `TypeError`, ... are
  results of the model, so "the thread dies" is an observable outcome.

Every definition cites the file and lines it models.  Specifications are stated
in `Verif/Props/*.lean` in terms of the commands and of what a user can observe
(rows of the tables, replies, messages sent, processes launched); helper lemmas
live in the model files and in `Verif/*Lemmas.lean`.  Every theorem is accompanied by
an `example` with a concrete non-trivial instance of its hypotheses.

**Where the code violates a property**, the negation is proved with a concrete
witness (theorem named `..._refuted`), and the strongest version that does hold is
proved as `..._partial`.  Section 4 lists all these disagreements.

## 2. Plan per property

| id | model | proof |
|----|-------|-------|
| C01 | `submit`, `insert_job`, AUTOINCREMENT table; interleaved system | invariant `ids < seq`, rely/guarantee over all interleavings; exact effect of one submit |
| C02 | `insert_job` select-by-timestamp | exact outcome for all time stamps; partial: unique time stamps; refuted for equal time stamps |
| C03 | whole concurrent system | guarantee "jobs only grow, immutable columns fixed" of every operation used |
| C04 | `ketchup.status` | decision logic + permutation/partition proof |
| C05 | SQLite `LIKE` matcher, `search` | exact meaning of the pattern; partial: strings without pattern characters; refuted for `_`, `%`, `'` |
| C06 | `submit` | decision logic |
| C07 | `cancel` | partial: single id; exact characterisation for lists; refuted for two ids |
| C08 | `cancel` | frame theorem over all lists |
| C09 | `cancel` | exact list of changed jobs; partial: single id (and last id not final); refuted for lists |
| C10 | `cancel` ∥ job manager ∥ job process | refuted by four schedules; partial: no pass in flight and not yet launched; cancelled between two passes |
| C11 | `snapshot`, `merge_netcdfs` preconditions | partial; refuted for jobs cancelled from the queue; exact outcome in all cases |
| C12 | `pipeline_load` | decision logic, exact effect |
| C13 | `pipeline_eject` | exact effect (atomic); refuted under interleaving |
| C14 | `pipeline_ready` | decision logic, idempotence |
| C15 | commands, manager passes, job completion as atomic operations | invariant by induction over histories |
| C16 | `find_matching_pipelines`, `method_validate`, `check_queued`, `action_queued` | soundness of matching; reservation implies snapshot condition; refuted: sample swapped during a pass |
| C17 | concurrent system with one job manager | rely/guarantee proof over all interleavings and crashes |
| C18 | concurrent system, job folders | rely/guarantee proof over all interleavings and crashes |
| C19 | `action_queued` | induction over the sorted queue |
| C20 | `pip.manager` pass | exact effect per pipeline; refuted for the 10 second limit (it is 10 days) |
| C21 | configuration + reservations | partial: configurations with disjoint pipelines; refuted otherwise |
| C22 | all actors | partial: operations that preserve final states; refuted by four schedules |
| C23 | `manage_running` | exact effect over the whole queue |
| C24 | `kill_tomato_job`, process tree | refuted (POSIX: only children are killed); partial |
| C25 | `tomato_job` end | partial; refuted by schedule |
| C26 | `cmd.stop` | decision logic |
| C27 | `cmd.reload` | decision logic over pairs of configurations |
| C28 | `cmd.reload` | partial: configuration installed; refuted: no table rows |
| C29 | daemon main loop | partial: known commands; refuted: stale reply, crash |
| C30 | `reload` in bootstrap mode | exact effect |
| C31 | `setup_db` | partial: current and missing databases; refuted: older versions |
| C32-C36 | `DeviceFile.populate_attrs` | invariants of the two nested loops; injectivity on strings; refuted cases |
| C37 | `plan` in `job_main_loop` | equality with `filter`, permutation |
| C38 | `job_thread` against an arbitrary environment | trace invariant |
| C39 | `job_thread`, `job_main_loop`, `tomato_job` | exact: only the first two tasks of a role are executed; refuted |
| C40-C42 | `job_thread` ∥ `job_main_loop` | trace invariants; refuted cases |
| C43 | `data_to_pickle`, crash points | partial: complete writes; refuted: crash during write |
| C44, C45 | `job_thread`, `job_main_loop` | trace invariants; refuted cases |
| C46 | `lpp.comm` | induction on retries |
| C47 | `lpp.comm` against a driver with delays | exact number of executions; refuted |
| C48-C50 | `task_validate`, `coerce_val` | equivalence with a declarative spec, agreement of the two implementations; NaN refutes the limits, for all attributes |
| C51-C54 | device worker ∥ command thread (interface 2.1, 2.0) | invariants over all step sequences; refuted cases |
| C55, C56 | decorators, driver main loop | decision logic; refuted cases |
| C57, C58 | `tomato_driver_bootstrap`, `cmp_register`, driver manager | invariants over registration histories; exactly which drivers are asked to register; refuted cases |
| C59, C60 | driver manager pass | invariants over histories; refuted cases |
| C61 | `perform_idle_measurements` | induction over iterations |
| C62, C63 | passata | trace properties; C62 partial (the configuration does not change during the command) |
| C64 | `tomato.init` over a file system map | exact effect |
| C65, C66 | `make_padded_lines`, `format_msg`, `parse_args` | string lemmas |
| C67, C68 | result paths, `merge_netcdfs` | injectivity, exact effect |
| C69 | upgrade loop of `submit` | well-founded iteration |
| C70 | job manager in the concurrent system | refuted by stuck states; partial: a pass in a healthy state launches |
| C71 | job thread ∥ driver ∥ worker (interface 2.1) | invariant linking thread, request and component; refuted for stopped tasks |
| C72 | the same | invariant over all runs, with stops and losses; refuted for a cache left by an earlier job |
| C73 | several job managers on one database | permission to launch = ownership of the job folder, invariant over all interleavings; refuted: two jobs on one pipeline, manager dies |
| C74 | daemon main loop ∥ three managers | liveness under fairness, well-founded on the rest of each program; refuted for silent drivers |
| C75 | the same, end of the driver manager | invariant over the last loop; refuted: unrecorded, forgotten, unmanaged drivers |
| C76 | the same | at most one pass after the threads were told; refuted |
| C77, C78 | driver manager pass, start of the daemon | exact effect of two passes with anything in between; refuted for clocks that restart and exhausted attempts |
| C79 | driver manager pass in any interleaving | every launch justified by what the pass has read; refuted: slow registration |
| C80, C81 | main thread of a job ∥ threads of the components | invariants over all histories; prefix order on the data |
| C82, C83 | the same, record of the job | refinement of the job without snapshots; exact condition for the folder; refuted |
| C84 | waiting loop and start of the threads | exact condition for leaving the loop; refuted |
| C85 | `tomato status` under arbitrary interference (`Sees`) | each row against the world in which it was read; refuted |
| C86, C87 | any number of `start`, `stop`, `reload` and daemon processes on one port | invariant on the holder of the port; refuted |
| C88 | the reply to `reload` in the same system | folder in the message against folder read; refuted |
| C89 | kills of the job manager in the interleaved system | invariant linking folders and reservations to launches; all continuations of a kill inside the window; refuted |
| C90 | the same with incomplete configurations | folders and reservations after a pass; refuted |
| C91 | the system with files refines the system without | every state and step property of `Reachable` carries over |
| C92 | `prepareOut` on a tree, alone and interleaved with others | exact tree; refuted by two jobs |
| C93 | all changes of files by job processes | a list of four kinds of change; `wantedFolder`; refuted for relative folders |
| C94 | archives: presence and content | sample and data of the job; refuted after a reload |
| C95 | a whole job process on its own | status, pipeline, tree; refuted by a folder in the way |
| C96 | completed jobs in all executions | record of merges, and the tree; refuted for jobs that die |
| C97 | the same system, any operation may raise before or after its effect | refinement to the system without faults; four consequences on rows |
| C98 | main loop and managers of one daemon | cause of the end of a thread; log of operations; reply to `status`; refuted |
| C99 | infinite fair schedules of the threads of a job | the main loop is `done` at some time; refuted for all jobs that wait for a name nobody has |
| C100 | one system for each database, a daemon whose settings name one of them | rows of jobs and pipelines over all databases; `Reachable` for each of them; refuted by a reload with another `dbpath` |
| C101 | a daemon and any number of driver processes, reloads, registrations, other messages | settings frozen at the start of the process; components after `register`; refuted for settings and for removed components |
| C102 | the system of C16 | the step at which the status arises, with the history of the pass; refuted for what happens later |
| C103 | the threads of a job, its main thread, and a driver with a component for each thread | every projection is a run of C70; tasks in order, merged data = measured data; refuted by a device that raises |
| C104 | interfaces 2.0 and 2.1 | after `crashed`, no use of the device until `wasReset`; given-up thread for 2.0; refuted for 2.0 |
| C105 | text of the settings, reader of the used part of TOML, `init`, device file, first reload | round trip for all plain paths; refuted for single quotes |
| C106 | driver process and main loop of the daemon | the reply after any messages to the daemon; registered components; refuted |
| C107 | interleaved system, processes and their ids | who holds a process id; a pass and the past; continuations in which the id is taken; refuted |
| C108 | threads of any jobs and the components they share, device files | each thread with its own component does what it could do alone (projection of histories), then C72; from the device file: different roles, different hardware; refuted for shared components |
| C109 | start of a driver process, installed packages as parameter | exact outcome; refuted for names that differ in `-` and `_`, exactly those share a package |
| C110 | all devices ever created for a component (generations), `Verif/Rereg.lean` | proved for registrations at rest and after a teardown; refuted otherwise |
| C111 | loops with intervals, exact rational time, `Verif/Clock.lean` | never early, end of a task proved; on time under bounds on the work of a turn; refuted for short intervals |
| C112 | component of interface 2.0 with its threads, `Verif/Iface20.lean` | refuted (ready too early); proved for components asked for one thing at a time |
| C113 | whole system with kills, `Verif/System.lean` | refuted (for ever, in all continuations); proved for processes which have connected |
| C114 | SQL texts read by a tokeniser and a parser, `Verif/Sql.lean`, and the system run on them, `Verif/SqlSystem.lean` | proved for names without quotes (statements, conditions, all executions); refuted for names with quotes |
| C115 | the device file as a document of any shape, `Verif/Docs.lean`, related to the typed reading of `Verif/DeviceFile.lean` | proved (exact) |
| C116 | the daemon with its settings as a document, and all places that read them, `Verif/Docs.lean` | proved for complete settings, with the exact needs of each pass; refuted in general, without remedy |
| C117 | the configuration of a pipeline from the choice for a job to the end of the job, `Verif/Props/KeptConf.lean` on `Verif/Stores.lean` | proved from the assignment on, with the exact condition before; refuted: a reload between the beginning of the pass and the assignment |
| C118 | variables, units and values of the measured data, from the sample to the file of the role, `Verif/Xr.lean`, `Verif/Props/Xr.lean` | proved for measurements of one kind, and for times, names and values whatever the units; exact condition for a failing sample; refuted: a change of the unit, a changed or missing value without the dimension `uts` |
| C119 | the end of a driver process: `quit` and the functions called at exit, for all devices ever created, `Verif/Quit.lean`, `Verif/Props/Quit.lean` | proved: all devices come to rest before the process is gone; it ends within a bound if no measurement hangs; refuted: a hanging measurement of one component lets another one go on |
| C120 | the main loop of a driver process with settings of any form, `Verif/DriverLoop.lean`, `Verif/Props/DriverLoop.lean` | proved for intervals that are numbers, `null` or missing; exact condition; refuted: a text |
| C121 | `tomato pipeline load / eject / ready` | what the last look at the table has seen (history of the command, any interleaving); complete executions: the row afterwards; refuted by an eject in between |
| C122 | the driver process of C119 | when exactly the main thread can not go on; bounded number of steps of a command; refuted: no message is taken up during the sample of another component |
| C123 | the end of a driver process with interface 2.0: `quit`, one second for each thread, the functions called at exit, `Verif/Quit20.lean`, `Verif/Props/Quit20.lean` | proved: the process always ends within a bound; a thread which is waited for takes at most nine more steps; everything is at rest at the end if requests come one at a time and no thread is late or ends in the wrong moment; refuted: a long sample, a thread which ends between `is_alive` and `join`, a thread left behind by a reset |
| C124 | the setting `lpp_timeout`: the time that each attempt of a request is given, `Verif/JobWait.lean`, `Verif/Props/JobWait.lean` | proved: exactly how a request ends for every limit; with numbers that are not negative the job does only what it can do with the default; refuted for other values |
| C125 | a thread of a job with a component of interface 2.0, `Verif/EndToEnd20.lean`, `Verif/Props/EndToEnd20.lean` | proved if tasks and measurements come while no thread of the component is being executed and no task is stopped, in particular for one task without measurements; refuted in four ways otherwise |
| C126 | the commands of interface 2.0 cut into single assignments, `Verif/Iface20Fine.lean`, `Verif/Props/Iface20Fine.lean` | proved by refinement (to the histories of C112) if tasks, measurements and resets come while no thread of the component is being executed; refuted otherwise, with a measurement and with a task |
| C127 | the command lines of the three programs, `Verif/Argparse.lean`, `Verif/CmdLine.lean`, `Verif/Props/CmdLine.lean` | proved for every subcommand and all command lines of the documented form (options in full, shortened or several in one word, one block of positionals, which may be negative numbers); a command line without a known subcommand, or with an ambiguous `--ver`, is refused; refuted: whatever is not understood is dropped silently |
| C128 | the command lines of `tomato-daemon`, `tomato-driver` and `tomato-job`, `Verif/Spawn.lean`, `Verif/Props/Spawn.lean` | proved, also from the command line of `tomato start` through to the daemon, for texts which do not begin with a dash; refuted for those which do |
| C129 | `cmp_last_data` of both interfaces, `Verif/LastData.lean` on `Iface21` and `Iface20`, `Verif/Props/LastData.lean` | proved which measurement it is of; that fetched data ends with it: for measurements of tasks; refuted for the last data after a reset and for a measurement on its own |
| C130 | `cmp_constants`, `cmp_status`, `in_devmap`, `Verif/LastData.lean`, `Verif/Props/LastData.lean` | proved; refuted for an attribute named `running` |
| C131 | the four time columns of `queue`, all writers, `Verif/Props/Times.lean` | proved |
| C132 | same | proved for launch and connection; refuted for completion |
| C133 | same | proved in part; refuted for cancelled queued jobs, for a cancellation during the end, and for the time of launch |
| C134 | `jobdata.json`: `action_queued`, job.py:262-302, and the beginning of `tomato_job`, 403-411, `Verif/JobData.lean` | proved |
| C135 | `cmd.reload` on two files that were read, `Verif/Props/Reload.lean` | proved (both directions, with C27) |
| C136 | what the three programs print and return, `Verif/Report.lean`, `Verif/Props/Report.lean` | proved for the command lines of C127 and in part for all; refuted: the exit status is 0 also after a failure |
| C137 | `populate_attrs`, the exception of a rejected file, `Verif/Props/Rejected.lean` | exact outcome by the first wrong entry; refuted for wildcards that name a channel |
| C138 | the path of a `.pkl` file, `Verif/DataFile.lean`, `Verif/Props/DataFile.lean` | roles without a slash; roles whose first part is not a folder fail; refuted for `../1/main` and `./main` |

## 3. Trusted base

* Lean 4.33.0 kernel; the axioms of each theorem are listed in the appendix, they are at most `propext`, `Classical.choice`, `Quot.sound`.
  No own axioms, no `sorry`, no `native_decide`, no `bv_decide`.
* The transcription from python to Lean (each definition cites its source lines).
* Assumed behaviour of the runtime, see section 5.

## 4. Disagreements between the code and the properties

Each item names the theorem that exhibits the behaviour.  "Dies" means an uncaught python
exception that ends the thread or process.

**Queue commands (ketchup).**
* `ketchup.cancel` updates `jobid`, the last id of the list, instead of the id it is looking at:
  of several ids only the last one is cancelled (`C07_refuted`), a finished last one becomes `cd`
  (`C09_refuted`), and a queued one may become `rd` without ever having had a process, where it
  stays for ever (`C23_refuted_stuck`).  A job in `rd` makes the command raise (`C07_refuted_rd`).
* `insert_job` finds the new id by `submitted_at`; equal time stamps return the other job
  (`C02_refuted`).
* `search` builds a `LIKE` pattern by string formatting: `%`, `_` are wildcards, `'` breaks the
  query (`C05_refuted`).
* `snapshot` of a job cancelled while queued raises (`C11_refuted`).
* A payload newer than the latest supported version is queued unchanged (`C69_refuted`).

**Job manager and job process.**
* `action_queued` does not look at the status again: a cancelled job is launched (`C10_refuted`).
  `check_queued` does not either: it writes `qw` over `cd`, the cancellation is undone, and a later pass launches the
  job (`C10_refuted_undone`).  A job that is still cancelled when the pass is over stays so (`C10_settled`).
* A left-over job folder raises `FileExistsError`, which ends the manager (`C19_refuted`).
* A job in `rd` without a recorded folder makes `merge_netcdfs` assert; the manager dies and nothing
  is scheduled any more (`C23_refuted`, `C70_refuted`).
* `kill_tomato_job` on POSIX only terminates the children; the process continues, overwrites `cd`
  with `c` (`C24_refuted`) and releases a pipeline that belongs to another job by then
  (`C25_refuted`).
* The manager overwrites `c` with `ce` if the job ends between its two looks (`C22_refuted`).
* User-chosen prefixes collide with the default names of other jobs (`C67_refuted`).
* A daemon killed between `os.makedirs` and `Popen` loses the job for ever: every later pass meets the
  folder and raises (`C89_refuted_folder`); if the pipeline had been reserved already, it is never given
  back, whatever is done (`C89_refuted_pipeline`).
* Settings without a section `[repositories]`, as written by earlier versions, are accepted; every launch
  then dies with `KeyError` after making the folder, and the job is lost for ever (`C90_refuted`).
* Two jobs with the same new output folder that start at the same time: one of them dies with
  `FileExistsError` although the folder is there, and is recorded as failed without having run
  (`C92_refuted`).
* A relative output folder is resolved in the working directory of the daemon, not in that of the user
  (`C93_refuted`; `docs/source/usage.rst:206`).
* A repository that is removed from the settings between submission and launch: the job ends normally
  without its archive (`C94_refuted`).
* The archive is written before the status: a folder in its place turns a successful job into a failed
  one (`C95_refuted`).
* The data of a job whose process has died is never merged into the result file (`C96_refuted`); the
  data of a cancelled job is.

* A manager whose pass raises is never restarted, while the daemon goes on reporting `running`
  (`C98_refuted`).

**Pipelines.**
* `timedelta(MAX_JOB_NOPID)` is ten days, not ten seconds (`C20_refuted_limit`); the pipeline manager
  reads the table once and may reset the pipeline of a live job (`C20_refuted_race`).
* `eject`, `load`, `ready` read and then update (`C13_refuted_interleaved`).
* Two pipelines may share a component; both get a job (`C21_refuted`).
* `reload` does not create rows for new pipelines and drivers (`C28_refuted`); commands on these
  pipelines raise or report success without effect (`C12_refuted`).

**Daemon.**
* An unknown command is answered with the previous reply, or ends the daemon (`C29_refuted_stale`,
  `C29_refuted_crash`).
* The assertion in `setup_db` makes the upgrade of older databases dead code (`C31_refuted`);
  creation is not atomic (`C31_refuted_interrupted`), nor is the upgrade (`C31_refuted_interrupted_upgrade`); without assertions version 0 loops for ever
  (`C31_refuted_endless`).
* Two daemons on one database launch two jobs on one pipeline (`C73_pipeline_refuted`); the slower
  job manager dies (`C73_manager_refuted`), although the documentation allows several daemons.
* A recorded driver that does not answer keeps a stopping daemon alive for ever (`C74_refuted`):
  `stop_tomato_driver` has no time-out.
* Drivers survive the daemon that started them: if they had not stored their process id when the
  daemon was stopped (`C75_refuted`; such a driver then waits for ever for an answer of the daemon),
  if they once answered `status` too late (`C75_forgotten_refuted`), if the driver manager died
  before (`C75_crashed_refuted`).
* `time.perf_counter` values are stored in the database and compared after a reboot, when the clock has
  started again: no driver is checked or started until the uptime exceeds the old one
  (`C77_refuted_reboot`).
* The number of failed attempts to start a driver is never reset: after three of them, restarting the
  daemon does not help (`C78_refuted`).
* A driver that needs more than a second to register its devices is forgotten and started a second time
  for the same devices (`C79_refuted`).
* A reload that changes the path of the database is accepted while jobs are running: `reload` looks for running
  jobs only to protect their pipelines and drivers. Afterwards the daemon does not know these jobs, and gives
  their pipelines to other jobs (`C100_refuted`).
* A driver process reads its settings once, when it starts. A reload with other settings of the driver is accepted and
  reported as a success, but has no effect on a process that is running (`C101_refuted`): the message `settings`
  of the driver process is sent by nobody. A component removed by a reload is still served
  (`C101_refuted_components`): nobody calls `cmp_teardown`.
* **C102**: `qw` is never taken back. A job for which no pipeline exists any more, after a reload, keeps a status which
  the documentation describes as "a suitable pipeline exists" (`C102_refuted`).
* **C103**: an exception in a device ends the task silently. The job thread sees a component that is not running any
  more and goes on; the job is recorded as complete although it has no data (`C103_refuted`).
* **C104**: `task_stop` of interface 2.0 sets `do_run` to `True`: a task that has just been given up because of an
  exception goes on measuring (`C104_refuted_interface_2_0`). An exception while the parameters are set is noted down at
  `self.thread` instead of the current thread; after a reset these differ, and the task is carried out although its
  parameters were not set (`C104_refuted_interface_2_0_prepare`).
* **C105**: `tomato init` pastes paths into literal strings of the settings file. With a single quote in one of
  them the command reports success, but the file can not be read (`C105_refuted`), or, if the
  name goes on like a comment, is read with another folder (`C105_refuted_silent`).
* **C106**: after a registration by hand the driver sends the command `component` to the daemon, which does not know it
  and sends its previous reply once more (`C106_reply`). The user never sees the capabilities, and a registration that
  succeeded is reported as a failure if, say, a reload was refused just before (`C106_refuted`).
* **C107**: the managers know the process of a job by its process id only. After a power cut another program can have
  the id of a dead job. The job stays `r` and keeps the pipeline as long as that program runs (`C107_mistaken`,
  `C107_refuted`); if the user cancels it, children of that program are terminated (`C107_refuted_kill`).
* **C108**: two pipelines, or two roles of one pipeline, may have the same component. A thread recognises its task by
  comparing the whole task with the one reported as running, and the cache of data belongs to the component. Data
  measured for a job are stored in the file of another job with an equal task (`C108_refuted`); data of one role are
  stored as the last data of another role, whose own last data are lost (`C108_refuted_roles`).
* **C109**: the drivers `a-b` and `a_b` are the same package; both get a process (`C109_refuted`).
* **C110**: `cmp_register` replaces a registered device without stopping its worker. The task
  goes on, next to the tasks of the new device (`C110_refuted_two_workers`); the component reports
  that it is idle, and data which have not been fetched are lost (`C110_refuted`).
* **C111**: the loop of a task sleeps for 10 ms at least, so that intervals below 10 ms are not kept:
  1000 samples in a second become 102 at most (`C111_refuted_fast`). After a slow measurement the
  missed samples are made up for in quick succession (`C111_refuted_slow`). Snapshots are made once
  per second at most (`C111_refuted_snapshots`).
* **C112**: a component of interface 2.0 sets `running` to `False` (2_0:612) before it prepares the
  thread for the next task (2_0:613); a task started in between ends the driver process
  (`C112_refuted`). A measurement which is accepted right after a task makes the component report to
  be ready while the task is being executed (`C112_refuted_in_the_middle`).
* **C113**: `manage_running` asks for jobs with a process id only (job.py:159), so that its branches for
  jobs which were launched and have not connected (job.py:162-182) are never executed. A job whose
  process ends before it has connected never gets an outcome, in no continuation (`C113_forever`,
  `C113_refuted`). After ten days its pipeline is given back; when it is ready again, the job manager
  tries to launch the job once more and ends with `FileExistsError`, as it does after each restart
  (`C113_refuted_blocks`; in general `C113_blocks`, `Verif/Props/Blocked.lean`: no pass comes to its end then).
* **C114**: names of pipelines and drivers, and the text of a search, are pasted into SQL texts between
  single quotes (pipdb.py:30, drvdb.py:40 and 72, ketchup 338). A pipeline called `Peter's` can be
  configured and is entered into its table (that statement has placeholders), but it can never be loaded
  (`C114_load_refuted`), and the job manager ends when it tries to use it (`C114_launch_refuted`); a
  driver with such a name is started and then makes the driver manager end (`C114_driver_refuted`). If
  the quotes are doubled another row is changed (`C114_doubled_refuted`); with other names all rows are
  (`C114_refuted`).
* `reload` accepts settings in which sections are missing. Without `[jobs]` all three managers end with
  `KeyError` at their next pass while the daemon reports to be running (`C116_refuted`); as `reload` and
  `stop` read the path of the database from the settings in use, each of them then ends the daemon
  itself, so that the settings can not be corrected (`C116_stuck`). Without `storage` or `logdir` the
  manager of jobs or drivers ends at the next launch (`C116_refuted_late`). A value that is no table, in
  the settings of a driver that has been removed from the device file, ends the daemon during `reload`
  (`C116_refuted_driver`): validation on assignment merges the new settings into the old device file.
* `reload` protects pipelines that have a job, but the job manager chooses pipelines with the configuration it
  has got at the beginning of its pass. If a reload removes or changes a free pipeline during a pass, the pass still gives
  the pipeline to a job and launches it (`C117_refuted`). Then the process of the job ends with `KeyError`, the
  pipeline manager ends with `KeyError` when it resets the pipeline, and the daemon itself ends with
  `KeyError` at the next reload (cmd.py:98); `stop` is refused as the pipeline has a job. From the assignment
  on nothing can change the pipeline (`C117_held`).
* Measured data is put together with `xr.concat` in two places, with `data_vars="minimal"` in the driver and `"all"` in
  the job process, and neither looks at units. A component that reports 300 K and later 20 degC has 20 K in its file
  (`C118_refuted`). A value without the dimension `uts` must not change between two requests for data: else
  the sample raises in the thread of the component, which ends; if a request falls between the two samples, all are
  stored (`C118_refuted_constant`). One that is left out in a sample is stored as if it had been measured
  (`C118_refuted_missing`).
* A driver stops its components one after the other, and `task_stop` waits for the lock of the component, which
  its worker holds during a measurement. While a measurement of the first component does not return, the others go
  on with their tasks, although the driver has answered that it stops (`C119_refuted`).
* The interval of idle measurements is not checked when the settings are read. If it is a text (`"1"`), each driver
  process ends with a `TypeError` in the second turn of its main loop (`C120_refuted`, `C120_exact`).
* `tomato pipeline load` may report success with an empty pipeline, if the sample is ejected before it reads the row
  again (`C121_refuted`).
* A driver asked for the data of a component while a sample is taken on it takes up no message for any other component
  until the measurement has ended (`C122_refuted`): a slow device delays all the others of the same driver.
* When a driver of interface 2.0 stops, tasks are cut off: if a sample takes longer than one second
  (`C123_refuted_late`); if a component was reset during a task, because the reset replaces `dev.thread` and the old
  thread is neither told to end nor waited for (`C123_refuted_left`); and if a task ends by itself between
  `dev.thread.is_alive()` and `dev.thread.join()`, because the thread prepared for the next task can not be joined, and
  the `RuntimeError` ends the process before the other components are told (`C123_refuted_race`).
* The setting `lpp_timeout` of a driver is not checked. If it is a text (`"2"`), a list or too large a number, every thread
  of a job on this driver ends with an exception in `poll`, before any task is sent; as the thread is not marked as
  crashed, the job is recorded as completed (`C124_refuted`). With a negative number a job waits for ever for a driver
  which has ended (`C124_refuted_negative`); with 0 it never receives an answer (`C124_refuted_zero`).
* With a driver of interface 2.0, a job with two tasks for a component may end the driver process: it submits the second
  task as soon as the component reports to be ready, which is before the thread for it has been prepared
  (`C125_refuted`). The same happens to the first task if the driver has just begun one of its own measurements, as
  `running` is set by the new thread and not by the command (`C125_refuted_measured`). A measurement accepted between a
  task and its beginning makes the component report to be ready in the middle of the task; the job fetches its data,
  is recorded as completed, and what is measured afterwards is lost (`C125_refuted_lost`). `task_stop` does not stop the
  task (C54), hence all that is measured after it is lost, and measuring goes on after the reset
  (`C125_refuted_stop`).
* `run()` and `measure()` of interface 2.0 read `self.thread` several times, and a thread replaces it as its last act, after
  `running = False`.  If this falls between the two statements, `task_start` starts a thread on which `do_run` was never set: the task is
  taken up and the thread dies with an `AttributeError`; with `cmp_measure`, a thread is started which waits for a task
  that nobody sends.  Both requests are answered with success, and the component reports to be running until it is reset,
  so the job waits for ever (`C126_refuted_start`, `C126_refuted`).
* Arguments which are not understood are dropped without a word, because `parse_args` ignores what the second
  `parse_known_args` leaves over: `tomato --port=1235 stop` stops the daemon of port 1234 (`C127_refuted`);
  `ketchup cancel --prot 1235 12` cancels the jobs 1235 and 12, of the daemon of port 1234
  (`C127_refuted_misspelt`); `ketchup cancel 12 -v 13` cancels job 12 only (`C127_refuted_split`);
  `tomato stop -vp 1235` stops the daemon of port 1234 (`C127_refuted_together`).
* The exit status of `tomato`, `ketchup` and `passata` is 0 also if the command failed, and if there is no daemon: only
  the printed text tells (`C136_refuted`, `C136_refuted_absent`; `__init__.py:34-49` returns `None` in each case).
* **C137**: a wildcard that names a channel other than `each` is rejected with a `KeyError` instead of the
  message of the assertion, which uses the key `chanel` (`C137_refuted`).
* **C138**: a role is part of a path unchecked: `../1/main` of one job writes to the file of role `main` of job 1,
  `./main` and `main` share a file, `a/b` can not be stored (`C138_refuted`); so for every
  role of every other job in the same place (`C138_refuted_every`), and a role like `/x` has one file for all jobs
  (`C138_refuted_absolute`).  In `Verif/Io.lean`
  every role with a slash fails, which is so if its first part is a plain name (`C138_slash`); what the theorems
  about stored data (C67, C71, C72 and those built on them) say does not hold of roles like the former two.
* A directory of the daemon or of the jobs, or a driver, whose name begins with a dash: the command line built for the
  process is not one it understands, so it ends at once (`C128_refuted`, `C128_refuted_driver`, `C128_refuted_job`).
* `ModelDevice.reset` (`2_1:655-684`, `2_0:721-728`), "to an initial status", keeps `last_data`: `cmp_last_data` goes on to
  answer with a data point of before the reset (`C129_refuted`).
* A measurement on its own leaves the cache alone: data points of a task which are fetched after it do not end with the last
  data (`C129_refuted_single`).
* `cmp_status` stores the flag `running` over an attribute of this name (`C130_refuted`).
* `launched_at` is written after the process was started, so it may be later than `connected_at` and
  even than `completed_at` (`C133_refuted_launch`).
* Cancelling a queued job leaves it in `cd` without a time of completion (`C133_refuted`); a
  cancellation that meets the end of the job leaves it in `rd` with one (`C133_refuted_rd`).
* The job manager may write a second time of completion, with another status (`C132_refuted`).
* A job may be launched after `stop` was answered with success (`C76_refuted`); `stop` checks for
  running jobs, but this one was not running yet.
* `tomato status pipelines` reads the pipelines one after the other: a sample that is being moved is shown
  twice (`C85_refuted_torn`).  A pipeline added by a reload has no row and makes the query of all
  pipelines fail (`C85_refuted_reload`); one driver without port, or without answer, does the same
  for all components (`C85_refuted_driver`).
* Two concurrent `tomato start` with different folders both report success, for one daemon; the other has
  already changed the tables (`C86_refuted_other`).  A daemon that begins slowly is reported as not
  running (`C86_refuted_slow`).  `start` tests the port by binding it, which kills a daemon that is
  just beginning (`C86_refuted_probe`).
* `tomato stop` waits without time-out for its second request: it may hang for ever
  (`C87_refuted_hang`) and stop a daemon started later (`C87_refuted_pending`); it reports success while
  the port is still occupied (`C87_refuted_early`).
* `tomato reload -A` reports the folder of the command, the daemon reads its own (`C88_refuted`).
* Empty status tables raise `ValueError` (`C65_refuted`).
* Component names are not injective (`C33_refuted`), repeated roles leave unused components
  (`C36_refuted`).

**Inside a job.**
* A periodic snapshot that meets a file just being rewritten raises in the main thread: the end of the
  job is never recorded, its pipeline stays occupied, tasks waiting for others never start
  (`C82_refuted`, `C82_refuted_record`).
* The folder for snapshots in the payload is ignored (`C83_refuted`).
* A job waits until *every* driver in the table has a port.  A driver that could not be started three
  times blocks all jobs for ever, also those that do not need it (`C84_refuted`).  Between the check and
  the start of the threads, the driver manager may reset the row: the threads get no port
  (`C84_refuted_race`).
* `completed_tasks` becomes `None` (the result of `list.append` is assigned): the third and later
  tasks are never executed, components with two or more tasks are never reset, the job is reported
  as complete (`C39_refuted`, `C39_at_most_two`, `C44_refuted_two_tasks`).
* `crashed` is read before `joined`: a crash in between is reported as success
  (`C39_refuted_race`).
* `current_task` is set before the start condition is met (`C40_refuted`, `C41_refuted`); short
  triggers are missed and the waiting task never starts (`C42_refuted`); a task that is to start with
  one that the job does not have keeps the job for ever (`C99_refuted`); a stopped task is not
  waited for (`C38_refuted`); a short task is never seen running and counts as failed
  (`C45_refuted_short_task`); no reset after a failure (`C44_refuted_failure`).
* The data file is truncated before it is rewritten (`C43_refuted`).
* A task that is told to stop may take one more sample after the last data were fetched; it is
  dropped by the reset or by the next task (`C71_refuted`).
* A component that was not reset after an earlier job hands its old data to the next job, if this one
  asks before the worker has emptied the cache (`C72_refuted`).

**Drivers.**
* Retries duplicate commands and lose data (`C47_refuted`, `C47_refuted_driver`).
* NaN passes all limits (`C48_refuted`, `C50_refuted`); interface 2.0 does not check options or
  `None` (`C48_refuted_interface_2_0`, `C49_refuted_interface_2_0`).
* Interface 2.1: tasks accepted after the worker died (`C51_refuted_dead_worker`), measurement
  accepted in the window before `running` is set (`C53_refuted`), stop lost during the preparation
  (`C54_refuted`).
* Interface 2.0: a second task kills the driver (`C51_refuted_interface_2_0`), reset leaves the old
  thread running (`C51_refuted_interface_2_0_reset`), concurrent measurement
  (`C53_refuted_interface_2_0`), `task_stop` has no effect (`C54_refuted_interface_2_0`), commands to
  unregistered components end the process (`C55_refuted_interface_2_0`).
* Unhashable component keys (`C55_refuted_unhashable`) and several malformed commands
  (`C56_refuted`) end the driver process.
* `retries == 3`: a registration by hand re-enables unlimited tries (`C57_refuted`); one registered
  component silences the manager (`C58_refuted`); `del_drv` raises and ends the manager
  (`C60_refuted`).
* An exception in an idle measurement starts a round every 100 ms (`C61_refuted`).
* passata asks another component after a reload in between (`C62_refuted_reload`).

**Seen while reading, not stated as a theorem.**  `tomato init` is documented as overwriting, but does
not; `kill_tomato_driver` passes a nested list to `wait_procs`.

## 5. What is modelled and what is not

| source (`/repo/src/tomato/`) | lines modelled | module | not modelled |
|---|---|---|---|
| `models.py` | the classes `Driver`, `Device`, `Component`, `Pipeline`, `Job`, `Daemon`, `Reply` | `Models` | `Job.coerce_payload` |
| | `DeviceFile`, `Daemon` on documents of any shape, with the coercions of pydantic | `Docs` | YAML and TOML syntax (but see `InitText`), values of YAML tags other than the standard ones; how pydantic converts a string to `int` is a parameter |
| `daemon/jobdb.py`, `pipdb.py`, `drvdb.py` | all functions, as atomic operations, and the texts of their statements | `World`, `Sql` | connection handling |
| `daemon/db.py` | all | `Db` | SQL column types |
| `daemon/cmd.py` | all commands | `Cmd` | `setup` parameters other than the settings used |
| `daemon/__init__.py` | handling of one message in the main loop, 75-86 | `Cmd` | |
| | main loop and threads, 55-101 | `Lifecycle` | logging, 24-35, and binding of the port, 56-59 (arguments, 44-49: `Spawn`) |
| `daemon/job.py` | all | `JobMgr` (46-497), `JobProc` (355-497 with files), `JobThread` (500-829), `JobSnap` (788-799), `JobStart` (731-783), `JobWait` (523-529) | logging |
| `daemon/pip.py` | all | `JobMgr` | |
| `daemon/driver.py` | 36-114, 199-441 | `DriverMgr`, `DriverStart` (204-241), `DriverProc`, `DriverLoop` (84-114, 247-319), `Quit`, `Quit20` (309-323), `Lifecycle` (425-441), `Spawn` (164-193, 401-416) | logging |
| `daemon/io.py` | all | `Io`, `Xr` | NetCDF encoding, other dimensions and attributes of variables |
| `daemon/lpp.py` | all | `Lpp`, `JobWait` | zmq itself |
| `ketchup/__init__.py` | all | `Ketchup` | texts of messages |
| `tomato/__init__.py` | 43-104 (tables), 106-256 (`status`), 259-372 and 462-508 (`start`, `stop`, `reload`), 375-460 (`init`), 511-637 (pipelines) | `Cli`, `Status`, `Clients`, `Pipelines`, `InitText` | the full grammar of TOML |
| `passata/__init__.py` | all | `Passata` | texts of messages |
| `driverinterface_2_1/` | `ModelInterface`, `ModelDevice`, decorators | `Iface21`, `Rereg`, `Quit`, `Clock`, `Validate`, `DriverProc`, `Xr`, `LastData` | construction of the dataset of one sample (the code of the driver) |
| `driverinterface_2_0/` | the same | `Iface20`, `Quit20`, `Validate`, `DriverProc`, `Xr`, `LastData` | the same |
| `daemon/crates.py` | all | `JobProc` | metadata that does not depend on the job; the library `rocrate` |
| `drivers.py` | all | `DriverStart` | which packages are installed is a parameter |
| `utils.py` | 33-44 (POSIX) | `DriverStart` | `spawn_cmd` (a launch is an event; the command lines are in `Spawn`), `load_device_file`, Windows |
| `__init__.py` (command line) | all parsers, `parse_args`, argument `verbosity`, what is printed and the exit status | `CmdLine`, `Report` | `argparse` is modelled in `Argparse`, without `--` |

`Verif/DeviceFile.lean` models `load_device_file` / `DeviceFile.populate_attrs` (`models.py`, with the
reading of the device file in `tomato/__init__.py`).

`Verif/EndToEnd.lean` puts `JobThread` and `Iface21` together (with the main loop of the driver,
`driver.py` 247-316, between them); it contains no further code of its own.  One thread, one component,
nobody else using it except for one-shot measurements.

`Verif/EndToEnd20.lean` does the same with `Iface20`.  The commands of the component are atomic there; the positive
theorems (C125) only concern histories in which `task_start` and accepted `cmp_measure` come while no thread of the
component is being executed, `task_data` is a section under the lock, `task_status` reads one attribute, and it does not
matter how the assignments of `cmp_reset` and the last one of a thread follow each other.

`Verif/Iface20Fine.lean` cuts the commands of `Iface20` into their single assignments, with the threads of the component
acting between any two of them.  `C126_partial` is the refinement which justifies the atomic commands of `Iface20` in C112 and
C125 under the conditions stated there.  Not modelled: the replacement of `datalock` by `reset` (2_0:728), and a thread which
waits in `get` of a queue that has been replaced.

`Verif/Argparse.lean` models `ArgumentParser.parse_known_args` of Python 3.11 (a library, transcribed function by function
from `argparse.py`, as far as the programs use it; the argument `--` is left out and stops the model), and `Verif/CmdLine.lean`
the parsers of `/repo/src/tomato/__init__.py:24-375` and `parse_args`.  That the model of argparse is right is part of the
trusted base; it was compared with the real library of Python 3.11 on 170 000 random command lines for parsers with the
same tables (built anew for the comparison; the project's code was not run), without a difference.  Python's `int` on
text and `tomato.status` are parameters.

`Verif/Report.lean` models the second half of `parse_args`: the question to the daemon, the call, the printed report and
the exit status of the console scripts.  `tomato.status`, the functions of the subcommands and `yaml.dump` are parameters
which may raise; the texts of `argparse` and tracebacks are left out.

`Verif/Spawn.lean` models the command lines which `tomato start`, the driver manager and the job manager build, and the
parsers of the processes which read them, with the same model of argparse.  Python's `str` and `int` for numbers which are
not negative are parameters with the hypothesis that they are inverse to each other (`numbers_dec` shows there are such).

`Verif/LastData.lean` models `cmp_last_data`, `cmp_constants` and `cmp_status`. The first is a function of the state of
`Iface21` or `Iface20`; its theorems speak about histories which carry the list of the completed measurements. `attrs` and
`get_attr` are the code of the driver and thus parameters.

`Verif/Props/Times.lean` is a rely/guarantee argument over the model of `Verif/System.lean`: each
running program is labelled with what it alone may write (the job manager `launched_at`, the process of
a job its `connected_at`), and each program is shown to keep the invariant of the rows whatever the
others do between its operations.  Executions in which the clock does not go back are `StepsUp`.
Not claimed: anything about the clocks of different machines; all programs read one clock.

`Verif/JobData.lean` is the job manager with the file `jobdata.json`, and job processes which learn from this file what
to do.  `Verif/System.lean` starts a process with the id and the pipeline of its launch; that this is right is now a
theorem (`C134_process`), and every execution with the file is one of the system without it (`C134_states`,
`C134_steps`).  Opening and writing the file are two operations, between which the job manager may be killed; what
`json.dump` has written is taken to be what `json.load` and `to_payload` give back; nobody else writes into the folders of
jobs.

`Verif/Whole.lean` puts any number of such pairs together with the main thread of the job (`JobThread`,
`mstep`): each thread has its own component and driver.  No further code either.

`Verif/Plant.lean` puts any number of threads and components together, where several threads may have the same
component; drivers do not occur in it, names for the current tasks come at any time.  No further code either.

`Verif/InitText.lean` models the text written by `tomato init` and a reader of the part of TOML it is written in.

`Verif/ByHand.lean` puts `DriverProc` (`cmp_register`) and `Cmd` (an unknown command) together.

`Verif/JobProc.lean` also contains the refinement of the system with files to the system of
`Verif/System.lean`.  There, the files written by the job manager and by snapshots are arbitrary changes.

`Verif/Faults.lean` adds failures to the system of `Verif/JobProc.lean`: any operation of any program may
raise, before or after its effect; it contains no further code.

`Verif/Stores.lean` has one system of `Verif/System.lean` for each database and a daemon that changes from one to
another by `reload`; it contains no further code.

`Verif/DriverSettings.lean` models lines 199-225 of `driver.py`, and puts `DriverProc` together with `cmd.reload`.

`Verif/Daemons.lean` runs any number of job manager passes and commands on one database; it contains
no further code.  `Verif/Lifecycle.lean` runs the main loop and the three managers of one daemon; everything
else is an arbitrary change of the world.

The modules `Inv`, `*Lemmas`, `*Safe`, `Abides`, `SparingEngine`, `SystemInv` contain no model code,
only lemmas used by several property files.

**Assumed behaviour of the runtime.**
* One sqlite statement with its commit is atomic; rows are listed in insertion order; AUTOINCREMENT
  gives an id larger than any id ever given; primary keys are enforced.
* `Verif/Sql.lean` contains the meaning of the statements of sqlite that the code uses (tokens, one
  `SELECT`, `UPDATE`, `INSERT` or `DELETE`, conditions made of `=`, `IS [NOT] NULL`, `IN`, `LIKE`, `AND`,
  `OR`); it is assumed to be that of sqlite. About texts outside of this part nothing is assumed (`Beyond`),
  except that a string literal which is never closed is an error. `str(datetime)` contains no quotes, and
  the time can be read from it again (`Stamp`).
* `os.makedirs` without `exist_ok` fails iff the folder exists.
* `psutil` answers according to the process table, which otherwise changes arbitrarily (any process
  may appear, end, or become a zombie at any time).
* In `Verif/Clock.lean` (C111) times are exact rational numbers; the rounding of python's `float` is
  left out. There the clock does not go backwards (`perf_counter` is monotonic within a process).
* The system clock and `perf_counter` are arbitrary and need not be monotonic, unless a theorem
  states a hypothesis on them.
* Exactly one daemon (one job manager) runs at a time, except in `Daemons` (C73); a killed daemon may be replaced by another
  one with a different configuration, but the same database and storage folder, except in `Stores` (C100).
* `Socket.poll` of `pyzmq` waits without limit for a negative number, truncates a number with a decimal point, and raises
  for everything else which is not a number or does not fit into a C `long` (`JobWait` only).
* Operations on a python attribute, a `queue.Queue` and a `threading.RLock` are atomic and
  sequentially consistent.
* `xr.concat` appends the points of the second dataset, as stated in `Verif/Xr.lean` (variables without the dimension
  `uts`, missing variables, attributes of the first dataset); pickling and NetCDF keep the content.
* Integers stand for finite floating point numbers in the validation.
* Files (`JobProc` only): a tree of folders and files without symbolic links, `..`, permissions and full
  disks; `os.mkdir` and writing a file are atomic; `os.makedirs` is the loop of the standard library;
  an output folder `""` is not distinguished from the root when the name of the result file is formed
  (the theorems exclude it).

**Abstractions that are parameters.**  The device's own code (`do_measure`, `set_attr`,
`capabilities`, ...), type conversions (`conv`), the upgrade functions of `dgbowl_schemas`, replies of
drivers, losses of messages: all of them are universally quantified in the theorems.

**Validation of the model.**  `Verif/RepoTests.lean` replays the scenarios of the project's own tests
(`/repo/tests`, test_01 to test_05, parts of test_99) on the model and compares with what these tests assert.
These are evaluations on single inputs, not proofs of any property; their purpose is to find mistakes of the
transcription.  Scenarios that only concern log levels, `argparse` or the content of NetCDF files are left out.

## Appendix: axioms of each theorem in the manifest

Output of `#print axioms`, grouped (prefix `Tomato.Props.` left out).

* **no axioms**: `C63_get_other`.
* **`propext`**: `C31_refuted_endless`, `C39_refuted`, `C39_refuted_race`, `C42_seen`, `C42_released_partial`, `C43_refuted`, `C47_refuted`, `C47_refuted_driver`, `C48_refuted_interface_2_0`, `C49_refuted_interface_2_0`, `C51_refuted_interface_2_0`, `C51_refuted_interface_2_0_reset`, `C53_refuted`, `C53_refuted_interface_2_0`, `C54_refuted`, `C54_refuted_interface_2_0`, `C55_unregistered_partial`, `C55_refuted_unhashable`, `C56_rejected_partial`, `C56_refuted`, `C61_none`, `C61_refuted`, `C62_unknown`, `C62_refuted_reload`, `C71_refuted`, `C80_none`, `C86_refuted_other`, `C86_refuted_slow`, `C86_refuted_probe`, `C87_refuted_hang`, `C87_refuted_pending`, `C87_refuted_early`, `C88_refuted`, `C103_refuted`, `C104_refuted_interface_2_0`, `C104_refuted_interface_2_0_prepare`, `C110_refuted_two_workers`, `C112_refuted`, `C112_refuted_in_the_middle`, `C118_refuted`, `C118_refuted_constant`, `C122_refuted`, `Two.C125_refuted_measured`, `Two.C125_refuted_lost`, `Latest.C129_refuted`, `Latest.C130_status_raises`.
* **`Quot.sound`, `propext`**: `C02_refuted`, `C04_status_exact`, `C06_bad_files_no_effect`, `C07_exact`, `C07_at_most_one`, `C07_refuted`, `C07_refuted_rd`, `C08_cancel_touches_only_listed`, `C09_finished_unaffected_partial`, `C09_refuted`, `C11_snapshot_refused`, `C11_snapshot_written_partial`, `C11_refuted`, `C12_load_partial`, `C12_load_justified`, `C12_refuted`, `C13_eject_partial`, `C13_eject_no_row`, `C13_eject_justified`, `C14_ready`, `C14_ready_no_row`, `C14_ready_justified`, `C14_ready_idempotent`, `C20_reset_partial`, `C20_reset_exact_partial`, `C20_reset_justified`, `C23_supervision_partial`, `C23_refuted`, `C23_refuted_stuck`, `C24_children_ended_partial`, `C25_releases_own_pipeline_partial`, `C27_reload_protects_running`, `C28_reload_uses_new_configuration_partial`, `C28_reload_driver_settings`, `C28_refuted`, `C29_answers_partial`, `C29_refuted_stale`, `C29_refuted_crash`, `C31_setup_partial`, `C31_refuted`, `C31_refuted_interrupted`, `C31_refuted_interrupted_upgrade`, `C38_ready`, `C38_refuted`, `C40_unconditional`, `C40_refuted`, `C41_refuted`, `C42_refuted`, `C43_stored_partial`, `C44_refuted_failure`, `C45_refuted_short_task`, `C46_no_retries_diverges`, `C48_validate_exact_partial`, `C48_validate_no_params`, `C48_refuted`, `C49_accepted_executable`, `C50_limits_partial`, `C50_task_limits_partial`, `C50_nan`, `C50_refuted`, `C51_fifo`, `C51_one_at_a_time`, `C51_refuted_dead_worker`, `C52_exactly_once`, `C52_reply`, `C53_refused_partial`, `C53_never_concurrent`, `C53_data_unchanged`, `C55_refuted_interface_2_0`, `C55_teardown_partial`, `C56_survives_partial`, `C56_keeps_running_partial`, `C56_deadly_exact`, `C57_bounded_partial`, `C57_success_partial`, `C57_rec`, `C57_refuted`, `C58_asks_partial`, `C58_only`, `C58_refuted`, `C59_spawned_at_most_three_times`, `C60_stop_partial`, `C60_refuted`, `C61_interval_partial`, `C61_happens`, `C62_modify_partial`, `C62_exact_partial`, `C64_init_keeps`, `C66_log_level`, `C69_refuted`, `C72_refuted`, `C79_spawn_justified_partial`, `C79_refuted`, `C82_refuted`, `C82_refuted_record`, `C83_default_partial`, `C83_refuted`, `C84_refuted_race`, `C86_settings`, `C87_closed_partial`, `C88_partial`, `C92_alone`, `C92_partial`, `C92_spurious_partial`, `C98_never_restarted`, `C101_frozen`, `C101_origin`, `C101_settings_partial`, `C101_registered`, `C101_own`, `C104_left_alone`, `C106_partial`, `C106_reply`, `C106_refuted`, `C110_refuted`, `C112_in_order`, `C113_partial`, `C117_threads`, `C118_refuted_missing`, `C119_refuted`, `C121_load`, `C121_eject`, `C121_ready`, `C121_told_partial`, `C121_refuted`, `End20.C123_refuted_late`, `End20.C123_refuted_race`, `End20.C123_refuted_left`, `Waiting.C124_request`, `Two.C125_refuted`, `Two.C125_refuted_stop`, `Latest.C129_last`, `Latest.C129_last_two`, `Latest.C129_end_partial`, `Latest.C129_end_two_partial`, `Latest.C129_refuted_single`, `Latest.C130_constants`, `Latest.C130_unknown`, `Latest.C130_status_partial`, `Latest.C130_refuted`, `Reload.C135_answer`.
* **`Classical.choice`, `Quot.sound`, `propext`**: `C01_submit_appends_fresh_job`, `C01_ids_fresh_concurrent`, `C02_exact`, `C02_submit_reports_own_job_partial`, `C03_records_immutable`, `C05_exact`, `C05_search_substring_partial`, `C05_refuted`, `C06_repositories_checked`, `C07_cancel_one_partial`, `C09_exact`, `C10_cancelled_never_started_partial`, `C10_settled`, `C10_refuted`, `C10_refuted_undone`, `C11_exact`, `C12_load_no_row_partial`, `C13_refuted_interleaved`, `C15_occupied`, `C16_matching`, `C17_no_double_assignment`, `C18_launched_once`, `C18_process_once`, `C19_order`, `C19_first_come_partial`, `C19_refuted`, `C20_refuted_limit`, `C20_refuted_race`, `C21_one_job_per_component_partial`, `C21_refuted`, `C22_finished_stays_partial`, `C22_refuted`, `C24_refuted`, `C25_refuted`, `C26_stop`, `C30_bootstrap`, `C31_without_assertions`, `C32_closed`, `namesMatch_parsed`, `C33_names_identify_partial`, `C33_refuted`, `C34_wildcards`, `fill_base`, `C35_accepted_iff_consistent`, `C36_components_used_partial`, `C36_refuted`, `C37_split`, `C38_order`, `C38_previous_partial`, `C39_all_sent_partial`, `C39_at_most_two`, `C40_start_partial`, `C41_stop_partial`, `C41_told`, `C42_starts_partial`, `C44_reset_partial`, `C44_refuted_two_tasks`, `C45_only_then`, `C45_error_partial`, `C46_returns`, `C47_exactly_once_partial`, `C47_executions`, `C51_measures_current`, `C51_no_deadlock`, `C51_interface_2_0_start_idle_partial`, `C54_stop_partial`, `C54_interface_2_0_no_effect`, `C60_pid_iff_port`, `C61_set_partial`, `C63_get`, `C64_init_creates`, `C64_init_succeeds`, `C65_tables_partial`, `C65_refuted`, `C67_folders`, `C67_merges_own_folder`, `C67_results_partial`, `C67_refuted`, `C68_groups`, `C68_stored`, `C68_result`, `C69_upgrade_partial`, `C70_pass_partial`, `C70_eventually_partial`, `C70_refuted`, `C71_stored_partial`, `C71_prefix_partial`, `C71_accounted_partial`, `C72_own_partial`, `C73_launched_once_partial`, `C73_process_once_partial`, `C73_pipeline_refuted`, `C73_manager_refuted`, `C74_exits_partial`, `C74_only_when_asked_partial`, `C74_refuted`, `C75_drivers_stopped_partial`, `C75_refuted`, `C75_forgotten_refuted`, `C75_crashed_refuted`, `C76_no_launch_partial`, `C76_refuted`, `C77_respawn_partial`, `C77_refuted_reboot`, `C78_restart_partial`, `C78_refuted`, `C80_schedule`, `C81_content`, `C81_growing`, `C82_undisturbed_partial`, `C83_exact`, `C84_ports_partial`, `C84_refuted`, `C85_moment_partial`, `C85_readonly`, `C85_absent`, `C85_answers_partial`, `C85_refuted_torn`, `C85_refuted_reload`, `C85_refuted_driver`, `C85_refuted_empty`, `C86_one`, `C86_launch`, `C86_occupied`, `C86_answer_partial`, `C86_own_partial`, `C87_down_partial`, `C89_partial`, `C89_window_partial`, `C89_folder`, `C89_pipeline`, `C89_refuted_folder`, `C89_refuted_pipeline`, `C90_partial`, `C90_refuted`, `C91_states`, `C91_steps`, `C91_consistent`, `C92_refuted`, `C93_only`, `C93_place`, `C93_partial`, `C93_refuted`, `C94_repos`, `C94_partial`, `C94_content`, `C94_refuted`, `C95_partial`, `C95_refuted`, `C96_merged`, `C96_partial`, `C96_refuted`, `C97_states`, `C97_steps`, `C97_consistent`, `C98_cause_partial`, `C98_refuted`, `C99_ends_partial`, `C99_unconditional_partial`, `C99_refuted`, `C100_each`, `C100_partial`, `C100_refused`, `C100_refuted`, `C101_refuted`, `C101_refuted_components`, `C102_promise_partial`, `C102_refuted`, `C103_complete_partial`, `C104_interface_2_0_partial`, `C105_partial`, `C105_daemon`, `C105_refuted`, `C105_refuted_silent`, `C107_stored`, `C107_partial`, `C107_kill_partial`, `C107_asked`, `C107_mistaken`, `C107_refuted`, `C107_refuted_kill`, `C108_partial`, `C108_apart_partial`, `C108_hardware_partial`, `C108_refuted`, `C108_refuted_roles`, `C109_serving_iff`, `C109_announced`, `C109_otherwise`, `C109_own_package_partial`, `C109_same_package_iff`, `C109_refuted`, `C110_each`, `C110_partial`, `C110_teardown`, `C110_out_of_reach`, `C111_never_early`, `C111_ends`, `C111_samples_partial`, `C111_polls_partial`, `C111_polls_apart`, `C111_snapshots_partial`, `C111_refuted_fast`, `C111_refuted_slow`, `C111_refuted_snapshots`, `C112_reset`, `C112_partial`, `C112_data_partial`, `C112_ready_again_partial`, `C113_forever`, `C113_blocks`, `C113_not_again`, `C113_refuted`, `C113_refuted_blocks`, `C114_partial`, `C114_rows_partial`, `C114_select_partial`, `C114_system_partial`, `C114_names_partial`, `C114_odd_refuted`, `C114_load_refuted`, `C114_driver_refuted`, `C114_launch_refuted`, `C114_doubled_refuted`, `C114_refuted`, `C115_exact`, `C116_started`, `C116_accepted`, `C116_reload_exact`, `C116_stop_exact`, `C116_partial`, `C116_passes`, `C116_stuck`, `C116_refuted`, `C116_refuted_late`, `C116_refuted_driver`, `C117_held`, `C117_origin`, `C117_exact`, `C117_partial`, `C117_refuted`, `C118_partial`, `C118_stored_partial`, `C118_values_partial`, `C118_fails_exactly`, `C119_partial`, `C119_ends`, `C120_partial`, `C120_exact`, `C120_message_ends`, `C120_refuted`, `C122_exact`, `C122_partial`, `End20.C123_ends`, `End20.C123_told`, `End20.C123_partial`, `Waiting.C124_same_as_lpp`, `Waiting.C124_partial`, `Waiting.C124_refuted`, `Waiting.C124_refuted_zero`, `Waiting.C124_refuted_negative`, `Two.C125_alive_partial`, `Two.C125_stored_partial`, `Two.C125_prefix_partial`, `Two.C125_single_partial`, `Fine.C126_partial`, `Fine.C126_stop_partial`, `Fine.C126_undisturbed_partial`, `Fine.C126_refuted`, `Fine.C126_refuted_start`, `Line.C127_partial`, `Line.C127_named`, `Line.C127_unknown_partial`, `Line.C127_ambiguous`, `Line.C127_refuted`, `Line.C127_refuted_misspelt`, `Line.C127_refuted_split`, `Line.C127_refuted_together`, `Told.C128_daemon_partial`, `Told.C128_driver_partial`, `Told.C128_job_partial`, `Told.C128_start_partial`, `Told.C128_refuted`, `Told.C128_refuted_driver`, `Told.C128_refuted_job`, `Times.C131_order`, `Times.C132_written_once_partial`, `Times.C132_refuted`, `Times.C133_status_partial`, `Times.C133_refuted`, `Times.C133_refuted_rd`, `Times.C133_refuted_launch`, `Given.C134_told`, `Given.C134_launch`, `Given.C134_kept`, `Given.C134_process`, `Given.C134_states`, `Given.C134_steps`, `Reload.C135_accepted`, `Reload.C135_exact`, `Reload.C135_reason`, `Reload.C135_unchanged`, `Reload.C135_files`, `Reported.C136_partial`, `Reported.C136_honest`, `Reported.C136_served`, `Reported.C136_status`, `Reported.C136_refuted`, `Reported.C136_refuted_absent`, `Rejection.C137_explained_partial`, `Rejection.C137_exact`, `Rejection.C137_refuted`, `DataFiles.C138_stored_partial`, `DataFiles.C138_own_partial`, `DataFiles.C138_slash`, `DataFiles.C138_refuted`, `DataFiles.C138_refuted_every`, `DataFiles.C138_refuted_absolute`.
