import Verif.Model.Server
import Verif.Spec.Iri
import Verif.Spec.Vhost

/-! # Vocabulary for the properties of the request handler -/

set_option autoImplicit false

namespace Gmid.Spec

/-- the effects are one reply header with this code, and possibly its log line; nothing else -/
def OnlyReply (code : Int) (effs : List Eff) : Prop :=
  ∃ text, effs = [.header code text] ∨ ∃ m, effs = [.header code text, .log code m]

/-- the effect is a reply header or a log line -/
def Quiet : Eff → Prop
  | .header _ _ => True
  | .log _ _ => True
  | _ => False

/-- the codes of the reply headers queued, in order -/
def headerCodes : List Eff → List Int
  | [] => []
  | .header code _ :: r => code :: headerCodes r
  | _ :: r => headerCodes r

/-- A connection bound to virtual host `v` under the name `name`, on which nothing has happened
yet and the request line `req` (and possibly more bytes, `rest`) has been received. -/
structure Requested (c : Client) (v : Vhost) (name req rest : List UInt8) : Prop where
  type : c.type = .undecided
  host : c.host = some v
  domain : c.domain = name
  out : c.out = []
  effs : c.effs = []
  isOpen : c.closed = false
  inp : c.inp = req ++ b%"\r\n" ++ rest
  line : ∀ a b, req ++ b%"\r" = a ++ b%"\r\n" ++ b → False
  room : c.inp.length ≤ 1026

/-- `Expands path query name port fmt out`: `out` is `fmt` with its specifiers replaced: `%%` by a
percent sign, `%p` by the path, with a leading slash, `%q` by the query, `%P` by the port, `%N` by
the server name -/
inductive Expands (path query name port : List UInt8) : List UInt8 → List UInt8 → Prop where
  | nil : Expands path query name port [] []
  | lit (c : UInt8) (f o : List UInt8) : c ≠ c%'%' → Expands path query name port f o →
      Expands path query name port (c :: f) (c :: o)
  | pct (f o : List UInt8) : Expands path query name port f o →
      Expands path query name port (b%"%%" ++ f) (b%"%" ++ o)
  | path (f o : List UInt8) : Expands path query name port f o →
      Expands path query name port (b%"%p" ++ f)
        ((if path.head? = some c%'/' then path else c%'/' :: path) ++ o)
  | query (f o : List UInt8) : Expands path query name port f o →
      Expands path query name port (b%"%q" ++ f) (query ++ o)
  | port (f o : List UInt8) : Expands path query name port f o →
      Expands path query name port (b%"%P" ++ f) (port ++ o)
  | name (f o : List UInt8) : Expands path query name port f o →
      Expands path query name port (b%"%N" ++ f) (name ++ o)

/-- `ds` is the decimal numeral of `n`: digits, no leading zero (except for 0 itself), value `n` -/
def Numeral (n : Nat) (ds : List UInt8) : Prop :=
  ds ≠ [] ∧ (∀ d ∈ ds, d ∈ b%"0123456789") ∧ decimal ds = n ∧ (ds.head? = some c%'0' → ds = b%"0")

/-! ### which rules are in force for a request -/

section
variable (fnm : List UInt8 → List UInt8 → Bool) (v : Vhost)

/-- the first relay-to rule matching scheme, server name and port text is `p` -/
def RelayIs (schema name port : List UInt8) (p : Proxy) : Prop :=
  ∃ before after, v.proxies = before ++ p :: after ∧ RelayMatches fnm p schema name port ∧
    ∀ q ∈ before, ¬ RelayMatches fnm q schema name port
def NoRelay (schema name port : List UInt8) : Prop := ∀ q ∈ v.proxies, ¬ RelayMatches fnm q schema name port

/-- the client CA in force for the path: that of the first matching location with one, else that of
the server -/
def CaIs (path : List UInt8) (store : Nat) : Prop :=
  (∃ l, FirstSet fnm (·.reqca ≠ none) v.locs path l ∧ l.reqca = some store) ∨
  (NoneSet fnm (·.reqca ≠ none) v.locs path ∧ v.dflt.reqca = some store)
def NoCa (path : List UInt8) : Prop :=
  NoneSet fnm (·.reqca ≠ none) v.locs path ∧ v.dflt.reqca = none

/-- the block return in force for the path -/
def BlockIs (path : List UInt8) (code : Int) (fmt : List UInt8) : Prop :=
  (∃ l, FirstSet fnm (·.blockCode ≠ 0) v.locs path l ∧ l.blockCode = code ∧ l.blockFmt = fmt) ∨
  (NoneSet fnm (·.blockCode ≠ 0) v.locs path ∧ v.dflt.blockCode ≠ 0 ∧ v.dflt.blockCode = code ∧
    v.dflt.blockFmt = fmt)
def NoBlock (path : List UInt8) : Prop :=
  NoneSet fnm (·.blockCode ≠ 0) v.locs path ∧ v.dflt.blockCode = 0

/-- the FastCGI application in force for the path is that of the block `l` -/
def FcgiIs (path : List UInt8) (l : Location) : Prop :=
  (FirstSet fnm (fun l => l.fcgi ≠ -1 ∨ l.nofcgi = true) v.locs path l ∧ l.fcgi ≠ -1) ∨
  (NoneSet fnm (fun l => l.fcgi ≠ -1 ∨ l.nofcgi = true) v.locs path ∧ l = v.dflt ∧ l.fcgi ≠ -1)
def NoFcgi (path : List UInt8) : Prop :=
  (∃ l, FirstSet fnm (fun l => l.fcgi ≠ -1 ∨ l.nofcgi = true) v.locs path l ∧ l.fcgi = -1) ∨
  (NoneSet fnm (fun l => l.fcgi ≠ -1 ∨ l.nofcgi = true) v.locs path ∧ v.dflt.fcgi = -1)

/-- the root directory in force for the path -/
def RootIs (path : List UInt8) (fd : Int) : Prop :=
  (∃ l, FirstSet fnm (·.dirfd ≠ -1) v.locs path l ∧ l.dirfd = fd) ∨
  (NoneSet fnm (·.dirfd ≠ -1) v.locs path ∧ v.dflt.dirfd = fd)

end

/-- A well-formed request has been received: it parses, and its host decodes. -/
structure WellFormed (env : Env) (c : Client) (v : Vhost) (name req rest : List UInt8) (i : Iri)
    (decoded : List UInt8) : Prop where
  requested : Requested c v name req rest
  nonul : (0 : UInt8) ∉ req
  parses : parseIri env.isAddr req = .ok i
  decodes : env.puny i.host = some decoded

/-- the request is for a gemini resource of the host negotiated with SNI -/
def ForUs (i : Iri) (name decoded : List UInt8) : Prop :=
  i.schema = b%"gemini" ∧ name.map lower = decoded.map lower

/-- the certificate check for the path passes (or there is none to make) -/
def CertOk (env : Env) (v : Vhost) (path : List UInt8) : Prop :=
  NoCa env.fnm v path ∨ ∃ store, CaIs env.fnm v path store ∧ env.certProvided = true ∧ env.verify store ≠ 0

end Gmid.Spec
