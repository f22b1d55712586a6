/-!
# Requests with retries

`comm`, `/repo/src/tomato/daemon/lpp.py:20-60`, together with the server at the other end.

One attempt is one `send_pyobj` followed by one `poll(timeout)`.  What becomes of an attempt is
chosen by the environment (`Net`).  The server is any function from its state to a new state and an
answer (the request is the same in all attempts).

Simplification: an answer that arrives after the `poll` is never seen, because the socket was
closed (lines 48-49) and the next attempt uses a new one (58-60).  For `retries <= 0` the loop may
run for ever; `comm` returns `none` when the given attempts do not suffice to end it.
-/

namespace Tomato.Lpp

/-- What becomes of one attempt. -/
inductive Net where
  /-- executed by the server, and answered in time -/
  | answered
  /-- executed by the server, but not answered in time -/
  | late
  /-- never executed -/
  | lost
  /-- executed by the server only after `comm` has returned -/
  | delayed
  deriving DecidableEq, Repr

/-- The result of `comm`, and the traces it leaves. -/
structure Result (S R : Type) where
  /-- the answer; `none`: the reply "offline, abandoning" of lines 52-55 -/
  answer : Option R
  /-- is the returned socket open? -/
  isOpen : Bool
  /-- how often the message was sent -/
  sent : Nat
  /-- the state of the server when `comm` returns -/
  state : S
  /-- requests that are still to be executed -/
  pending : Nat
  deriving DecidableEq, Repr

variable {S R : Type}

/-- The loop, lpp.py:43-60. -/
def commLoop (serve : S → S × R) : List Net → Int → S → Nat → Nat → Option (Result S R)
  | [], _, _, _, _ => none
  | .answered :: _, _, s, sent, pending =>
    some { answer := some (serve s).2, isOpen := true, sent := sent, state := (serve s).1,
           pending := pending }
  | a :: rest, retries, s, sent, pending =>
    let s' := if a = .late then (serve s).1 else s
    let pending' := if a = .delayed then pending + 1 else pending
    if retries - 1 = 0 then
      some { answer := none, isOpen := false, sent := sent, state := s', pending := pending' }
    else commLoop serve rest (retries - 1) s' (sent + 1) pending'

/-- `comm`, lpp.py:20-61; `net` says what becomes of the attempts. -/
def comm (serve : S → S × R) (net : List Net) (retries : Int) (s : S) : Option (Result S R) :=
  commLoop serve net retries s 1 0

/-- The server after executing the request `n` times. -/
def iter (serve : S → S × R) : Nat → S → S
  | 0, s => s
  | n + 1, s => iter serve n (serve s).1

/-- The server after everything that was still under way has been executed. -/
def Result.final (serve : S → S × R) (r : Result S R) : S := iter serve r.pending r.state

end Tomato.Lpp
