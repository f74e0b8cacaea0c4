import Verif.Model.ProxyProto

/-!
# What is logged of a connection with a header of the PROXY protocol
-/

set_option autoImplicit false

namespace Gmid

variable {A : Type}

/-- proxy-proto.c:185-216, proxy_proto_v1_string into a buffer of `buflen` bytes, and the string that is in the buffer afterwards, which is what server.c:1376-1377
prints, without looking at the return value: when an address has no name the buffer is not initialised and printing it is undefined.  `none` is PROTO_UNKNOWN.
(Simplification: a buffer of at least 8 bytes, as it is of 1024.) -/
def ppString (name : A → Option Bytes) (buflen : Nat) : Option (PP1 A) → Res Bytes
  | none => .ok b%"unknown"
  | some s =>
    match name s.src with
    | none => .ub
    | some a =>
      match name s.dst with
      | none => .ub
      | some d => .ok ((b%"from " ++ a ++ b%" port " ++ natDec s.sport ++ b%" via " ++ d ++ b%" port " ++ natDec s.dport).take (buflen - 1))

/-- server.c:1355-1377, in read_cb, when the buffer has a whole line: what is logged (`none`: nothing about the header, it is not accepted, or the client's address has
no name) -/
def ppLogged (num : Option Nat → Bytes → Option A) (name : A → Option Bytes) (buf : Bytes) : Res (Option Bytes) :=
  match ppParse num buf with
  | .reject => .ok none
  | .unknown => match ppString name 1024 none with | .ok t => .ok (some (b%"proxy-protocol v1: " ++ t)) | .err => .err | .ub => .ub
  | .accept pp _ _ =>
    match name pp.src with
    | none => .ok none
    | some _ => match ppString name 1024 (some pp) with | .ok t => .ok (some (b%"proxy-protocol v1: " ++ t)) | .err => .err | .ub => .ub

end Gmid
