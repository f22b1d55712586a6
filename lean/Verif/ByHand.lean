import Verif.Cmd
import Verif.DriverProc

/-!
# Registering a component by hand

`passata register` (passata/__init__.py:105-128) sends `cmp_register` to the driver process.  The
driver calls `cmp_register` of its interface and, on success, tells the daemon with the command
`component` (driver.py:284-290).  The daemon has no such command (cmd.py defines `status`, `stop` and
`reload`), so its main loop (daemon/__init__.py:81-86) sends the reply to the previous message once
more, and the driver passes it on to the user.
-/

namespace Tomato.ByHand

/-- The reply that reaches the user: one made by the driver interface (2_1/__init__.py:117-124,
2_0:170-175), with the capabilities as data; or one made by the daemon. -/
inductive HReply where
  | driver (success : Bool) (caps : Option (List String))
  | daemon (r : CReply)

/-- Its success flag. -/
def HReply.success : HReply → Bool
  | .driver b _ => b
  | .daemon r => r.success

/-- What becomes of the request. -/
inductive Outcome where
  | reply (r : HReply)
  /-- the driver process ends with an exception -/
  | driverDies (e : PyErr)
  /-- the daemon ends with an exception, the driver waits for its reply for ever -/
  | daemonDies (e : PyErr)

/-- driver.py:284-290 together with the daemon's handling of the message `component`: the interface
`i` registers `k` (its device behaves as told by `o`), the daemon is in the state `l`. -/
def byHand (i : Drv.Iface) (k : Drv.Key) (o : Drv.RegOut) (l : DLoop) (w : World) :
    Outcome × Drv.Iface × DLoop × World :=
  match Drv.cmpRegister i k o with
  | .error e => (.driverDies e, i, l, w)
  | .ok (i', false) => (.reply (.driver false none), i', l, w)
  | .ok (i', true) =>
    match runW (handleMsg l (.unknown "component")) w with
    | (.ok (r, l'), w') => (.reply (.daemon r), i', l', w')
    | (.error e, w') => (.daemonDies e, i', l, w')

end Tomato.ByHand
