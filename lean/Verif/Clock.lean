import Mathlib.Algebra.Order.Field.Rat
import Mathlib.Order.MinMax

/-!
# Things that are done at intervals

The project repeats things at intervals in the same way everywhere: a variable holds the time when
the thing was last due; in each turn of a loop, if more than the interval has passed since then,
the thing is done and the variable is moved on by one interval.

* the samples of a task: `/repo/src/tomato/driverinterface_2_1/__init__.py:536-550` and
  `/repo/src/tomato/driverinterface_2_0/__init__.py:589-609`,
* the data of a task, polled by the thread of a job: `/repo/src/tomato/daemon/job.py:623-641, 684`,
* the snapshots of a job: `/repo/src/tomato/daemon/job.py:789-799, 823`.

Time is a rational number of seconds.  `time.perf_counter` is a parameter: between the sleep at the
end of one turn and the reading of the clock in the next one, an arbitrary time passes, which also
accounts for the work that the turn has done and for sleeping longer than asked.

Simplifications: the arithmetic is exact (python's `float` is rounded).  The flags which stop a task
early are left out: a stopped task is one with fewer turns.
-/

namespace Tomato.Clock

/-- The variable `t_p` (`tP`, `tS`) and the times at which the thing was done. -/
structure Tick where
  prev : ℚ
  done : List ℚ := []
  deriving DecidableEq, Repr

/-- One turn: `if t_n - t_p > interval: ...; t_p += interval`, 2_1:540-544, 2_0:593-606,
job.py:625-641, job.py:795-799. -/
def Tick.turn (iv tn : ℚ) (s : Tick) : Tick :=
  if tn - s.prev > iv then { prev := s.prev + iv, done := s.done ++ [tn] } else s

/-- The turns at the times `ts`, started at `t0`. -/
def ticks (iv t0 : ℚ) (ts : List ℚ) : Tick := ts.foldl (fun s t => s.turn iv t) { prev := t0 }

/-- The parts of a task which concern time. -/
structure Timing where
  /-- `sampling_interval` -/
  si : ℚ
  /-- `max_duration` -/
  md : ℚ
  deriving DecidableEq, Repr

/-- The sleep at the end of a turn, 2_1:550. -/
def pause21 (si : ℚ) : ℚ := min (1 / 5) (max (1 / 100) (si / 20))

/-- The sleep at the end of a turn, 2_0:609. -/
def pause20 (si : ℚ) : ℚ := max (1 / 100) (si / 20)

/-- The loop of a task, 2_1:539-550, 2_0:592-609: `now` is the time at which the turn begins, `ws`
are the times that pass beyond the sleep.  Returns the samples, and the time of the last turn if the
task has ended because its time is over. -/
def taskLoop (k : Timing) (pause t0 : ℚ) : ℚ → Tick → List ℚ → Tick × Option ℚ
  | _, s, [] => (s, none)
  | now, s, w :: ws =>
    let tn := now + w
    let s' := s.turn k.si tn
    if tn - t0 > k.md then (s', some tn)
    else taskLoop k pause t0 (tn + pause) s' ws

/-- A task which is begun at `t0`. -/
def runTask (k : Timing) (pause t0 : ℚ) (ws : List ℚ) : Tick × Option ℚ :=
  taskLoop k pause t0 t0 { prev := t0 } ws

/-- The sleep at the end of a turn of the thread of a job, job.py:684. -/
def pausePoll (pollrate tn tp : ℚ) : ℚ := max (1 / 10) ((pollrate - (tn - tp)) / 2)

/-- The main loop of the thread of a job, job.py:624-684, as far as it concerns polling.  `p` is the
time of the last turn; it is returned as well. -/
def pollLoop (pollrate : ℚ) : ℚ → ℚ → Tick → List ℚ → Tick × ℚ
  | _, p, s, [] => (s, p)
  | now, _, s, w :: ws =>
    let tn := now + w
    let s' := s.turn pollrate tn
    pollLoop pollrate (tn + pausePoll pollrate tn s'.prev) tn s' ws

/-- The sleep at the end of a turn of the main loop of a job, `time.sleep(1.0 - tN % 1)`,
job.py:823. -/
def pauseMain (tn : ℚ) : ℚ := 1 - (tn - tn.floor)

/-- The main loop of a job, job.py:794-823, as far as it concerns snapshots.  `p` is the time of the
last turn; it is returned as well. -/
def snapLoop (interval : ℚ) : ℚ → ℚ → Tick → List ℚ → Tick × ℚ
  | _, p, s, [] => (s, p)
  | now, _, s, w :: ws =>
    let tn := now + w
    snapLoop interval (tn + pauseMain tn) tn (s.turn interval tn) ws

end Tomato.Clock
