import Verif.Props.Iri
import Verif.Props.Encode
import Verif.Props.Vhost
import Verif.Props.Mime
import Verif.Props.Reply
import Verif.Props.Dispatch
import Verif.Props.Files
import Verif.Props.Conn
import Verif.Props.Body
import Verif.Props.Listing
import Verif.Props.Wire
import Verif.Props.Puny
import Verif.Props.Compat
import Verif.Props.Vis
import Verif.Props.Fcgi
import Verif.Props.FcgiReply
import Verif.Props.Proxy
import Verif.Props.ProxyProto
import Verif.Props.Imsg
import Verif.Props.Config
import Verif.Props.Reload
import Verif.Props.Parse
import Verif.Props.Lex
import Verif.Props.Actions
import Verif.Props.Crypto
import Verif.Props.Close
import Verif.Props.Clients
import Verif.Props.Proc
import Verif.Props.Logger
import Verif.Props.Pidfile
import Verif.Props.Grammar
import Verif.Props.Exec
import Verif.Props.Sandbox
import Verif.Props.TlsName
import Verif.Props.Ibuf
import Verif.Props.Send
import Verif.Props.Realloc
import Verif.Props.Dial
import Verif.Props.Text
import Verif.Props.TlsIo
import Verif.Props.Upstream
import Verif.Props.Ge
import Verif.Props.GeFiles
import Verif.Props.Events
import Verif.Props.Protocols
import Verif.Props.Deploy
import Verif.Props.Pki
import Verif.Props.DeployUp
import Verif.Props.DeployCgi
import Verif.Props.Live
import Verif.Props.Memory
import Verif.Props.Creds
import Verif.Props.Splay
import Verif.Props.LogName
import Verif.Props.GeServe
import Verif.Props.UpTls
import Verif.Props.Cli
import Verif.Props.Dump
import Verif.Props.SafePrint
import Verif.Props.SayUtf8
import Verif.Props.Log
import Verif.Props.Protect
import Verif.Props.ProtectFile
import Verif.Props.ProxyWait
import Verif.Props.Fetch
import Verif.Props.Rand
import Verif.Props.Chain
import Verif.Props.ChainDir
import Verif.Props.FetchDir
import Verif.Props.FetchCgi
import Verif.Props.Glob
import Verif.Props.Hup
import Verif.Props.Count
import Verif.Props.TlsLib
import Verif.Props.PeerCert
import Verif.Props.Queue
import Verif.Props.Ocsp
import Verif.Props.LoadFile
import Verif.Props.ProxyLog
