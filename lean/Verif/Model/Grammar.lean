import Verif.Model.Actions
import Verif.Model.Lex

/-!
# Model of the grammar of parse.y

One inductive relation for each nonterminal: `GX ts v` when the tokens `ts` are derived from X, with the semantic value `v`; one
constructor for each rule, but for those with the token `error`, which only come into play when the tokens cannot be derived without them (and
then an error is reported, and the file is refused: C68).  The value of a list of options is the list of the directives they stand for, as
Model/Actions.lean has them.  The tokens are those of yylex, with those of the included files in their place: when the rule include
is reduced the file is pushed, with a newline in front of its first character.
-/

set_option autoImplicit false

namespace Gmid

abbrev Toks := List Tok

mutual
/-- parse.y:695-697, nl -/
inductive GNl : Toks → Prop where
  | newline (ts : Toks) (h : GOptnl ts) : GNl (.chr 10 :: ts)
  | semi (ts : Toks) (h : GOptnl ts) : GNl (.chr c%';' :: ts)
/-- parse.y:699-701, optnl -/
inductive GOptnl : Toks → Prop where
  | nl (ts : Toks) (h : GNl ts) : GOptnl ts
  | empty : GOptnl []
end

/-- parse.y:182-184, bool -/
inductive GBool : Toks → Bool → Prop where
  | on : GBool [.kw b%"ON"] true
  | off : GBool [.kw b%"OFF"] false

/-- parse.y:186-197, string -/
inductive GString : Toks → Bytes → Prop where
  | more (ts : Toks) (a b : Bytes) (h : GString ts a) : GString (ts ++ [.str b]) (a ++ b)
  | one (a : Bytes) : GString [.str a] a

/-- parse.y:199-208, numberstring -/
inductive GNumStr : Toks → Bytes → Prop where
  | num (n : Int) : GNumStr [.num n] (intDec n)
  | str (s : Bytes) : GNumStr [.str s] s

/-- parse.y:166-180, include -/
inductive GInclude : Toks → Bytes → Prop where
  | mk (s : Bytes) : GInclude [.kw b%"INCLUDE", .str s] s

/-- parse.y:210-225, varset -/
inductive GVarset : Toks → Bytes → Bytes → Prop where
  | mk (n : Bytes) (ts : Toks) (v : Bytes) (h : GString ts v) : GVarset ([.str n, .chr c%'='] ++ ts) n v

/-- parse.y:267-326, logopt -/
inductive GLogopt : Toks → Directive → Prop where
  | access (ts : Toks) (s : Bytes) (h : GString ts s) : GLogopt (.kw b%"ACCESS" :: ts) (.logAccess s)
  | style (ts : Toks) (s : Bytes) (h : GString ts s) : GLogopt (.kw b%"STYLE" :: ts) (.logStyle s)
  | facility (ts : Toks) (s : Bytes) (h : GString ts s) : GLogopt (.kw b%"SYSLOG" :: .kw b%"FACILITY" :: ts) (.syslogFacility s)
  | syslogOff : GLogopt [.kw b%"SYSLOG", .kw b%"OFF"] .syslogOff
  | syslog : GLogopt [.kw b%"SYSLOG"] .syslog

/-- parse.y:263-265, logopts -/
inductive GLogopts : Toks → List Directive → Prop where
  | empty : GLogopts [] []
  | more (ts o n : Toks) (ds : List Directive) (d : Directive) (h : GLogopts ts ds) (ho : GLogopt o d) (hn : GOptnl n) :
      GLogopts (ts ++ o ++ n) (ds ++ [d])

/-- parse.y:259-261, log -/
inductive GLog : Toks → List Directive → Prop where
  | block (n ts : Toks) (ds : List Directive) (hn : GOptnl n) (h : GLogopts ts ds) :
      GLog ([.kw b%"LOG", .chr c%'{'] ++ n ++ ts ++ [.chr c%'}']) ds
  | one (ts : Toks) (d : Directive) (h : GLogopt ts d) : GLog (.kw b%"LOG" :: ts) [d]

/-- parse.y:227-257, option -/
inductive GOption : Toks → List Directive → Prop where
  | chroot (ts : Toks) (s : Bytes) (h : GString ts s) : GOption (.kw b%"CHROOT" :: ts) [.chroot s]
  | ipv6 (ts : Toks) (b : Bool) (h : GBool ts b) : GOption (.kw b%"IPV6" :: ts) [.ipv6 b]
  | log (ts : Toks) (ds : List Directive) (h : GLog ts ds) : GOption ts ds
  | port (n : Int) : GOption [.kw b%"PORT", .num n] [.port n]
  | prefork (n : Int) : GOption [.kw b%"PREFORK", .num n] [.prefork n]
  | protocols (ts : Toks) (s : Bytes) (h : GString ts s) : GOption (.kw b%"PROTOCOLS" :: ts) [.protocols s]
  | user (ts : Toks) (s : Bytes) (h : GString ts s) : GOption (.kw b%"USER" :: ts) [.user s]

/-- parse.y:637-667, fastcgiopt -/
inductive GFastcgiopt : Toks → LocOpt → Prop where
  | param (t u : Toks) (n v : Bytes) (h : GString t n) (h' : GString u v) : GFastcgiopt (.kw b%"PARAM" :: t ++ .chr c%'=' :: u) (.fcgiParam n v)
  | socket (t : Toks) (s : Bytes) (h : GString t s) : GFastcgiopt (.kw b%"SOCKET" :: t) (.fcgiSocket s none)
  | tcpNum (t : Toks) (s : Bytes) (n : Int) (h : GString t s) :
      GFastcgiopt (.kw b%"SOCKET" :: .kw b%"TCP" :: t ++ [.kw b%"PORT", .num n]) (.fcgiSocket s (some (intDec n)))
  | tcp (t : Toks) (s : Bytes) (h : GString t s) : GFastcgiopt (.kw b%"SOCKET" :: .kw b%"TCP" :: t) (.fcgiSocket s (some b%"9000"))
  | tcpStr (t u : Toks) (s p : Bytes) (h : GString t s) (h' : GString u p) :
      GFastcgiopt (.kw b%"SOCKET" :: .kw b%"TCP" :: t ++ .kw b%"PORT" :: u) (.fcgiSocket s (some p))
  | strip (n : Int) : GFastcgiopt [.kw b%"STRIP", .num n] (.fcgiStrip n)

/-- parse.y:633-635, fastcgiopts -/
inductive GFastcgiopts : Toks → List LocOpt → Prop where
  | empty : GFastcgiopts [] []
  | more (ts o n : Toks) (ds : List LocOpt) (d : LocOpt) (h : GFastcgiopts ts ds) (ho : GFastcgiopt o d) (hn : GOptnl n) :
      GFastcgiopts (ts ++ o ++ n) (ds ++ [d])

/-- parse.y:619-631, fastcgi -/
inductive GFastcgi : Toks → List LocOpt → Prop where
  | block (n ts : Toks) (ds : List LocOpt) (hn : GOptnl n) (h : GFastcgiopts ts ds) :
      GFastcgi ([.kw b%"FASTCGI", .chr c%'{'] ++ n ++ ts ++ [.chr c%'}']) ds
  | one (ts : Toks) (d : LocOpt) (h : GFastcgiopt ts d) : GFastcgi (.kw b%"FASTCGI" :: ts) [d]
  | off : GFastcgi [.kw b%"FASTCGI", .kw b%"OFF"] [.fcgiOff]
  | path (ts : Toks) (s : Bytes) (h : GString ts s) : GFastcgi (.kw b%"FASTCGI" :: ts) [.fcgiSocket s none]

/-- parse.y:567-617, locopt -/
inductive GLocopt : Toks → List LocOpt → Prop where
  | autoIndex (ts : Toks) (b : Bool) (h : GBool ts b) : GLocopt (.kw b%"AUTO" :: .kw b%"INDEX" :: ts) [.autoIndex b]
  | blockText (n : Int) (ts : Toks) (s : Bytes) (h : GString ts s) :
      GLocopt (.kw b%"BLOCK" :: .kw b%"RETURN" :: .num n :: ts) [.blockReturn n (some s)]
  | blockCode (n : Int) : GLocopt [.kw b%"BLOCK", .kw b%"RETURN", .num n] [.blockReturn n none]
  | block : GLocopt [.kw b%"BLOCK"] [.block]
  | defaultType (ts : Toks) (s : Bytes) (h : GString ts s) : GLocopt (.kw b%"DEFAULT" :: .kw b%"TYPE" :: ts) [.defaultType s]
  | fastcgi (ts : Toks) (ds : List LocOpt) (h : GFastcgi ts ds) : GLocopt ts ds
  | index (ts : Toks) (s : Bytes) (h : GString ts s) : GLocopt (.kw b%"INDEX" :: ts) [.index s]
  | lang (ts : Toks) (s : Bytes) (h : GString ts s) : GLocopt (.kw b%"LANG" :: ts) [.lang s]
  | log (ts : Toks) (b : Bool) (h : GBool ts b) : GLocopt (.kw b%"LOG" :: ts) [.log b]
  | requireCa (ts : Toks) (s : Bytes) (h : GString ts s) :
      GLocopt (.kw b%"REQUIRE" :: .kw b%"CLIENT" :: .kw b%"CA" :: ts) [.requireCa s]
  | root (ts : Toks) (s : Bytes) (h : GString ts s) : GLocopt (.kw b%"ROOT" :: ts) [.root s]
  | strip (n : Int) : GLocopt [.kw b%"STRIP", .num n] [.strip n]

/-- parse.y:563-565, locopts -/
inductive GLocopts : Toks → List LocOpt → Prop where
  | empty : GLocopts [] []
  | more (ts o n : Toks) (ds d : List LocOpt) (h : GLocopts ts ds) (ho : GLocopt o d) (hn : GOptnl n) : GLocopts (ts ++ o ++ n) (ds ++ d)

/-- parse.y:551-561, location -/
inductive GLocation : Toks → SrvOpt → Prop where
  | mk (t n ts : Toks) (s : Bytes) (ds : List LocOpt) (hs : GString t s) (hn : GOptnl n) (h : GLocopts ts ds) :
      GLocation (.kw b%"LOCATION" :: t ++ [.chr c%'{'] ++ n ++ ts ++ [.chr c%'}']) (.location s ds)

/-- parse.y:476-483, proxy_port -/
inductive GProxyPort : Toks → PortArg → Prop where
  | empty : GProxyPort [] .none
  | str (s : Bytes) : GProxyPort [.kw b%"PORT", .str s] (.name s)
  | num (n : Int) : GProxyPort [.kw b%"PORT", .num n] (.num n)

/-- parse.y:485-502, proxy_match -/
inductive GProxyMatch : Toks → ProxyMatch → Prop where
  | proto (t : Toks) (s : Bytes) (h : GString t s) : GProxyMatch (.kw b%"PROTO" :: t) (.proto s)
  | forHost (t u : Toks) (s : Bytes) (p : PortArg) (h : GString t s) (hp : GProxyPort u p) : GProxyMatch (.kw b%"FOR_HOST" :: t ++ u) (.forHost s p)

/-- parse.y:472-474, proxy_matches -/
inductive GProxyMatches : Toks → List ProxyMatch → Prop where
  | empty : GProxyMatches [] []
  | more (ts o : Toks) (ms : List ProxyMatch) (m : ProxyMatch) (h : GProxyMatches ts ms) (ho : GProxyMatch o m) : GProxyMatches (ts ++ o) (ms ++ [m])

/-- parse.y:508-549, proxy_opt -/
inductive GProxyOpt : Toks → ProxyOpt → Prop where
  | cert (t : Toks) (s : Bytes) (h : GString t s) : GProxyOpt (.kw b%"CERT" :: t) (.cert s)
  | key (t : Toks) (s : Bytes) (h : GString t s) : GProxyOpt (.kw b%"KEY" :: t) (.key s)
  | protocols (t : Toks) (s : Bytes) (h : GString t s) : GProxyOpt (.kw b%"PROTOCOLS" :: t) (.protocols s)
  | proxyV1 : GProxyOpt [.kw b%"PROXYV1"] .proxyV1
  | relayTo (t u : Toks) (s : Bytes) (p : PortArg) (h : GString t s) (hp : GProxyPort u p) : GProxyOpt (.kw b%"RELAY_TO" :: t ++ u) (.relayTo s p)
  | requireCa (t : Toks) (s : Bytes) (h : GString t s) : GProxyOpt (.kw b%"REQUIRE" :: .kw b%"CLIENT" :: .kw b%"CA" :: t) (.requireCa s)
  | sni (t : Toks) (s : Bytes) (h : GString t s) : GProxyOpt (.kw b%"SNI" :: t) (.sni s)
  | useTls (t : Toks) (b : Bool) (h : GBool t b) : GProxyOpt (.kw b%"USE_TLS" :: t) (.useTls b)
  | verifyName (t : Toks) (b : Bool) (h : GBool t b) : GProxyOpt (.kw b%"VERIFYNAME" :: t) (.verifyName b)

/-- parse.y:504-506, proxy_opts -/
inductive GProxyOpts : Toks → List ProxyOpt → Prop where
  | empty : GProxyOpts [] []
  | more (ts o n : Toks) (ds : List ProxyOpt) (d : ProxyOpt) (h : GProxyOpts ts ds) (ho : GProxyOpt o d) (hn : GOptnl n) :
      GProxyOpts (ts ++ o ++ n) (ds ++ [d])

/-- parse.y:461-470, proxy -/
inductive GProxy : Toks → SrvOpt → Prop where
  | mk (m n ts : Toks) (ms : List ProxyMatch) (ds : List ProxyOpt) (hm : GProxyMatches m ms) (hn : GOptnl n) (h : GProxyOpts ts ds) :
      GProxy (.kw b%"PROXY" :: m ++ [.chr c%'{'] ++ n ++ ts ++ [.chr c%'}']) (.proxy ms ds)

/-- parse.y:376-378, listen_addr -/
inductive GListenAddr : Toks → Option Bytes → Prop where
  | any : GListenAddr [.chr c%'*'] none
  | str (s : Bytes) : GListenAddr [.str s] (some s)

/-- parse.y:380-459, servopt -/
inductive GServopt : Toks → List SrvOpt → Prop where
  | alias (t : Toks) (s : Bytes) (h : GString t s) : GServopt (.kw b%"ALIAS" :: t) [.alias s]
  | cert (t : Toks) (s : Bytes) (h : GString t s) : GServopt (.kw b%"CERT" :: t) [.cert s]
  | cgi (t : Toks) (s : Bytes) (h : GString t s) : GServopt (.kw b%"CGI" :: t) [.cgi s]
  | key (t : Toks) (s : Bytes) (h : GString t s) : GServopt (.kw b%"KEY" :: t) [.key s]
  | ocsp (t : Toks) (s : Bytes) (h : GString t s) : GServopt (.kw b%"OCSP" :: t) [.ocsp s]
  | param (t u : Toks) (n v : Bytes) (h : GString t n) (h' : GString u v) :
      GServopt (.kw b%"PARAM" :: t ++ .chr c%'=' :: u) [.opt (.fcgiParam n v)]
  | listen (t : Toks) (a : Option Bytes) (h : GListenAddr t a) : GServopt (.kw b%"LISTEN" :: .kw b%"ON" :: t) [.listen a b%"1965" false]
  | listenStr (t : Toks) (a : Option Bytes) (s : Bytes) (h : GListenAddr t a) :
      GServopt (.kw b%"LISTEN" :: .kw b%"ON" :: t ++ [.kw b%"PORT", .str s]) [.listen a s false]
  | listenNum (t : Toks) (a : Option Bytes) (n : Int) (h : GListenAddr t a) :
      GServopt (.kw b%"LISTEN" :: .kw b%"ON" :: t ++ [.kw b%"PORT", .num n]) [.listen a (intDec n) false]
  | listenV1 (t : Toks) (a : Option Bytes) (h : GListenAddr t a) :
      GServopt (.kw b%"LISTEN" :: .kw b%"ON" :: t ++ [.kw b%"PROXYV1"]) [.listen a b%"1965" true]
  | listenStrV1 (t : Toks) (a : Option Bytes) (s : Bytes) (h : GListenAddr t a) :
      GServopt (.kw b%"LISTEN" :: .kw b%"ON" :: t ++ [.kw b%"PORT", .str s, .kw b%"PROXYV1"]) [.listen a s true]
  | listenNumV1 (t : Toks) (a : Option Bytes) (n : Int) (h : GListenAddr t a) :
      GServopt (.kw b%"LISTEN" :: .kw b%"ON" :: t ++ [.kw b%"PORT", .num n, .kw b%"PROXYV1"]) [.listen a (intDec n) true]
  | locopt (t : Toks) (ds : List LocOpt) (h : GLocopt t ds) : GServopt t (ds.map .opt)

/-- parse.y:370-374, servbody -/
inductive GServbody : Toks → List SrvOpt → Prop where
  | empty : GServbody [] []
  | opt (ts o n : Toks) (ds d : List SrvOpt) (h : GServbody ts ds) (ho : GServopt o d) (hn : GOptnl n) : GServbody (ts ++ o ++ n) (ds ++ d)
  | location (ts o n : Toks) (ds : List SrvOpt) (d : SrvOpt) (h : GServbody ts ds) (ho : GLocation o d) (hn : GOptnl n) :
      GServbody (ts ++ o ++ n) (ds ++ [d])
  | proxy (ts o n : Toks) (ds : List SrvOpt) (d : SrvOpt) (h : GServbody ts ds) (ho : GProxy o d) (hn : GOptnl n) :
      GServbody (ts ++ o ++ n) (ds ++ [d])

/-- parse.y:328-368, vhost -/
inductive GVhost : Toks → Directive → Prop where
  | mk (t n ts : Toks) (s : Bytes) (ds : List SrvOpt) (hs : GString t s) (hn : GOptnl n) (h : GServbody ts ds) :
      GVhost (.kw b%"SERVER" :: t ++ [.chr c%'{'] ++ n ++ ts ++ [.chr c%'}']) (.server s ds)

/-- parse.y:682-692, medianames_l and medianamesl -/
inductive GMedianames : Toks → List Bytes → Prop where
  | more (ts o : Toks) (ns : List Bytes) (s : Bytes) (h : GMedianames ts ns) (ho : GNumStr o s) : GMedianames (ts ++ o) (ns ++ [s])
  | one (o : Toks) (s : Bytes) (h : GNumStr o s) : GMedianames o [s]

/-- a line of the block types: the names of a media type, or a file included there -/
inductive Media where
  | names (t : Bytes) (ns : List Bytes)
  | incl (s : Bytes)
  deriving Repr, DecidableEq

/-- parse.y:675-680, mediaoptsl -/
inductive GMediaoptsl : Toks → Media → Prop where
  | names (s : Bytes) (ts : Toks) (ns : List Bytes) (h : GMedianames ts ns) : GMediaoptsl (.str s :: ts) (.names s ns)
  | incl (ts : Toks) (s : Bytes) (h : GInclude ts s) : GMediaoptsl ts (.incl s)

/-- parse.y:671-673, mediaopts_l -/
inductive GMediaopts : Toks → List Media → Prop where
  | more (ts o n : Toks) (ms : List Media) (m : Media) (h : GMediaopts ts ms) (ho : GMediaoptsl o m) (hn : GNl n) : GMediaopts (ts ++ o ++ n) (ms ++ [m])
  | one (o n : Toks) (m : Media) (ho : GMediaoptsl o m) (hn : GNl n) : GMediaopts (o ++ n) [m]

/-- parse.y:669, types -/
inductive GTypes : Toks → List Media → Prop where
  | mk (n ts : Toks) (ms : List Media) (hn : GOptnl n) (h : GMediaopts ts ms) :
      GTypes ([.kw b%"TYPES", .chr c%'{'] ++ n ++ ts ++ [.chr c%'}']) ms

/-- a piece of the configuration -/
inductive Item where
  | incl (s : Bytes)
  | varset (n v : Bytes)
  | option (ds : List Directive)
  | vhost (d : Directive)
  | types (ms : List Media)
  deriving Repr, DecidableEq

/-- the pieces of the rule conf (parse.y:158-162) -/
inductive GItem : Toks → Item → Prop where
  | incl (ts : Toks) (s : Bytes) (h : GInclude ts s) : GItem ts (.incl s)
  | varset (ts : Toks) (n v : Bytes) (h : GVarset ts n v) : GItem ts (.varset n v)
  | option (ts : Toks) (ds : List Directive) (h : GOption ts ds) : GItem ts (.option ds)
  | vhost (ts : Toks) (d : Directive) (h : GVhost ts d) : GItem ts (.vhost d)
  | types (ts : Toks) (ms : List Media) (h : GTypes ts ms) : GItem ts (.types ms)

/-- parse.y:156-163, conf; the rule with error is left out -/
inductive GConf : Toks → List Item → Prop where
  | empty : GConf [] []
  | more (ts o n : Toks) (is : List Item) (i : Item) (h : GConf ts is) (ho : GItem o i) (hn : GNl n) : GConf (ts ++ o ++ n) (is ++ [i])

/-- parse.y:153-154, grammar: the start symbol -/
inductive Grammar : Toks → List Item → Prop where
  | nl (n ts : Toks) (is : List Item) (hn : GNl n) (h : GConf ts is) : Grammar (n ++ ts) is
  | conf (ts : Toks) (is : List Item) (h : GConf ts is) : Grammar ts is

/-- the directives of the pieces, for Model/Actions.lean -/
def Item.directives : Item → List Directive
  | .option ds => ds
  | .vhost d => [d]
  | .types ms => [.types (ms.filterMap fun m => match m with | .names t ns => some (t, ns) | .incl _ => none)]
  | _ => []

end Gmid
