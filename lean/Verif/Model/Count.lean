import Verif.Model.Close
import Verif.Model.Log

/-!
# The number of connected clients (server.c:44)
-/

set_option autoImplicit false

namespace Gmid

/-- connected_clients: incremented at server.c:1455, at the end of server_accept, decremented at server.c:1221, in client_close_ev when tls_close is done.
(Simplification: the int is unbounded; each connection has a descriptor.) -/
def countStep (n : Int) : RelEv → Int
  | .accept _ _ (some _) => n + 1
  | .close _ _ .done => n - 1
  | .fire (.closeEv _) .done => n - 1
  | _ => n

/-- a history of the process, with the number -/
def runCount (w : World) (n : Int) : List RelEv → Option (World × Int)
  | [] => some (w, n)
  | e :: es =>
    match w.step e with
    | none => none
    | some w' => runCount w' (countStep n e) es

/-- server.c:1458-1462, handle_siginfo -/
def handleSiginfo (lib : LogLib) (n : Int) (st : LogSt) : Option LogSt := logInfoMsg lib b%"%d connected clients" [.int n] st

end Gmid
