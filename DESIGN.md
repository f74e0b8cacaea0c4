# gmid: formal model in Lean 4 — design

Layout (all under `lean/Verif/`):

* `Model/*.lean`  — transcription of the C code, function by function; every definition cites
  `file:lines` in /repo and states its simplifications.
* `Spec/*.lean`   — small, independent specifications (no reference to the model).
* `Lemmas/*.lean` — helper lemmas, not part of the claims.
* `Props/*.lean`  — the property theorems, each followed by non-vacuity examples.

## Conventions

* A C string is a `List UInt8` without its terminating NUL; where bounds, aliasing or termination
  are the subject, memory is an explicit `List UInt8` of fixed size and a read or write outside it is
  the distinct outcome `ub` (never totalised away).
* `char` is signed on the platforms gmid runs on; the places where this matters are commented.
* External calls (fnmatch, getaddrinfo, openat, fstat, read, tls_*, X509_verify_cert, kernel read and
  write sizes) are parameters of the model and universally quantified in the theorems.
* gmid.c:248 takes LC_CTYPE from the environment; the model assumes the "C" locale or a UTF-8 one, in
  which bytes of 128 and more belong to no character class and tolower(3) leaves them alone.

## Plan per property

| id | modelled | how it is proved |
|----|----------|------------------|
| C01 | parse_iri + path_clean on a byte buffer | corollary of C02 and of the component-stack spec's invariant |
| C02 | path_clean with real memory and the p/q pointers | refinement: memory loop = zipper loop = component fold, by induction with a loop invariant |
| C03 | as C02 | normal forms are fixed points of the spec |
| C04 | the scanning loops of parse_path / parse_authority | refinement to an independent recursive decoder |
| C05 | parse_scheme / parse_authority | as C04 |
| C06 | parse_port with a uint32 accumulator | induction over digits, accumulator bound |
| C07 | parse_iri | equivalence with a declarative grammar |
| C08 | encode_path with explicit buffer | induction; independent decoder |
| C09 | DFA table + valid_multibyte_utf8 | DFA states characterised; equivalence to RFC 3629 ABNF |
| C10 | strlcpy/strlcat/serialize_iri | append algebra of truncated concatenation |
| C11 | serialize_iri after parse_iri | false: witness; partial theorem for unescaped requests |
| C12 | puny.c with buffer sizes and C arithmetic | false: witnesses (division by zero, missing NUL, overflow); partial theorem |
| C13 | copy_label, puny_decode | induction over labels |
| C14 | decode/insert/adapt | refinement to RFC 3492 under no-overflow |
| C15 | the vhost_* functions over a list of locations, fnmatch a parameter | induction over the list against a `find?`-style spec |
| C16 | handle_handshake host selection | idem |
| C17, C18, C20 | client_read as a decision function emitting effects | case analysis; effects recorded in a trace |
| C19 | client_read over any chunking | induction over reads |
| C21 | start_reply | case analysis + lengths |
| C22 | connection state machine | invariant by induction over events |
| C23 | fmtbuf with tmp[32] and strlcat | invariant, refinement to an expansion spec |
| C24 | strip_path | false for N>=2: witness; partial for N<=1 and exact characterisation |
| C25 | client_read + strip | from C01 |
| C26, C27 | mime.c | bsearch correctness, growth invariant |
| C28–C30 | fcgi.c encoders, stream parser | round trip through an independent decoder; fold over chunks |
| C31, C32 | proxy_read, matched_proxy | fold over chunks; `find?` |
| C33–C35 | proxy-proto.c, read_cb | parser equivalence; witness for the defects found; partial |
| C36, C37 | imsg-buffer.c / imsg.c framing | queue refinement, for every write/read schedule |
| C38, C39 | config_send/config_recv as message lists | round trip by induction |
| C40 | main_reload state machine | invariant over event sequences |
| C41–C44 | parse.y helpers | induction; whole-table computation for keywords |
| C45–C48 | compat/*.c | induction |
| C49, C50 | log_request, vis.c | C50 by induction with an independent unvis; C49 |
| C51–C53 | client_write, dirs.c, open_dir | induction over read schedule |
| C54, C78–C80 | crypto.c: the engine side in the server processes, the dispatcher, and the messages between any number of processes | invariant over every interleaving (each outstanding request belongs to one call); false parts by witness |
| C55 | descriptors, TLS contexts and connection records as tables whose numbers are reused; client_close and its helpers, open_dir, fcgi_error, proxy_error | ownership invariant over all event sequences; three witnesses of double close, use after free and leak |
| C56, C57 | parse.y (listen_on, add_to_addr_queue, lungetc/lgetc) | induction over directives / operations |
| C58, C81 | gg.c | fold over chunks: a read script delivers the same bytes however it is cut |
| C59, C61, C62 | the whole of client_read/client_write/start_reply | consequences of the dispatcher's case analysis; header injection and second request by witness |
| C60 | matched_proxy + for-host | false: witness; the rule applies exactly when the port is written out (C60_for_host_partial) |
| C63 | log_request's common name | spec of the first CN= component; false: witness |
| C64–C68 | the lexer of parse.y with its push-back buffer, its 8096 byte token buffer and included files | termination measure, buffer-bound invariant; equalities on the tokens read |
| C69–C77 | the semantic actions of parse.y over a syntax tree, config_new/config_purge, main/main_reload | induction over directives against declarative specs; witnesses |
| C82–C84 | titan.c (iomux, parse_response, the request line) | induction over rounds; truncated-concatenation algebra; witnesses |
| C85–C87 | proc.c: descriptors of every process at start-up, and how processes end | invariants over every order of messages and events |
| C88–C90 | logger.c, main_send_logfd, SIGUSR1 | invariant over histories; witnesses |
| C91 | write_pidfile | invariant over any interleaving of starts, crashes and ends |
| C92, C93 | the grammar of parse.y, one inductive relation per nonterminal | a deterministic parser proved sound and complete for it; stability under a layout relation |
| C94, C96 | main's options (getopt_long as in POSIX), proc_exec's arguments, proc_run's privilege dropping | induction over command lines; the child's main run on the arguments the parent made |
| C95 | sandbox.c with landlock, over a kernel whose every call may fail | case analysis over the kernel; what is permitted is a function of the ruleset |
| C97 | libtls's name checks on the names in a certificate, inet_pton a parameter | equivalence with a specification of RFC 6125's rules |
| C98, C99 | add_matching_kps, setup_tls, the servername callback; the handshake's choice of a server | induction over servers and addresses; C99 refuted by a witness |
| C100 | compat/imsg-buffer.c's ibuf_* calls over bytes of memory, out of bounds accesses undefined | simulation by a queue, induction over calls |
| C101 | config_send's calls, proc_compose_imsg and proc_flush_imsg over the descriptors of the main process | invariants of the loops over instances; induction over calls |
| C102 | recallocarray, reallocarray and freezero over a heap of blocks with their bytes; out of bounds and use after free undefined | the overflow check is equivalent to the product not fitting; invariant over histories against a resizable array |
| C103 | proxy_socket, fcgi_open_conn, fcgi_open_sock, connectto and dial over a table of descriptors with their peers | induction over the addresses; refuted for long socket paths |
| C104 | lgetc/yylex on whole files (Model/Lex.lean) and the grammar (Model/Grammar.lean); a text is a sequence of spelled tokens (Spec/Text.lean) | induction over the text, with the end of file as one more newline; digits that are not a number are put back and read as a word; a writer for every directive; uniqueness from C92; the exception (a number right before a semicolon is a string) proved too |
| C105 | client_tls_readcb and client_tls_writecb with the pending state of ev_read and ev_write, over client_read, client_write, fcgi_read, fcgi_error and proxy_* (Model/TlsIo.lean) | invariant over all histories: open and in progress implies the write event is pending; every callback either changes the output (which arms it) or leaves the type; prefix order on sent ++ out; counter-example by evaluation |
| C106 | proxy_enqueue_req, proxy_tls_readcb, proxy_tls_writecb, proxy_write with the pending state of the events, and proxy_write_cb with the results of write(2) (Model/Upstream.lean) | invariant wire ++ out = message with the events pending; measure for the liveness part; simulation of the client's side by Model/Proxy.lean (C31); induction on the results of write(2) |
| C107 | the options, the directory and the one host of ge.c (Model/Ge.lean), with the server of Model/Server.lean | the host has no root but its own, no FastCGI and no relay, so the effects of C01/C37 leave only openat below its directory; induction over the arguments; witness for names of 4096 bytes |
| C108 | dirname(3), pdirname, mkdirs with a tree of directories and a failing mkdir, data_dir (Model/Ge.lean) | induction on the components of the path; the recursion depth as fuel, with `none` for all depths when it never ends |
| C109 | access, fopen, the writes and unlink on a directory of files with owners' modes and umask; gencert and load_local_cert as the list of all intermediate states (Model/Ge.lean) | invariants over the states; witnesses for the key's mode, the deleted key and the empty certificate |
| C110 | proc_dispatch, imsg_event_add and imsg_compose_event for two processes with arbitrary callbacks and their pending events (Model/Events.lean), over the channels of Model/Imsg.lean | invariant over histories: both channels sound (C36), write event pending iff the queue is not empty, reader drained, state = fold of the callback over what was got; measure 2·queued + in the socket for delivery |
| C111 | tls_config_parse_protocols with strsep, and the version part of tls_configure_ssl (Model/Protocols) | reverse induction on the list of words: the two bits are the last word about each version; composed with C72 for the whole file. False when a list keeps everything out and goes on with an exclusion (`C111_excluded_again`) |
| C112 | the pieces of struct conf that config_send takes and server_configure_done (Model/Deploy.lean), joined to the lexer, grammar, actions, transfer and request handler of the other models | composition of C104 (text), C69-C72 (actions), C38 (transfer), C27 (types), C16 (host), C15/C26 (rules), C51 (body), C17, C23, C22; the sizes C51 and C22 ask for are derived from the acceptance of the file |
| C113 | ssl_pubkey_hash, tls_cert_pubkey_hash, tls_hex_string, tls_keypair_to_pkey, tls_keypair_setup_pkey, tls_configure_ssl_keypair, with their buffers (Model/Pki.lean); OpenSSL is a parameter: certificates of a file, keys, digests, kinds | both loops write the same digits in bounds; hexadecimal is injective; then C38 (transfer to the crypto process) and the first entry of the list |
| C114 | config_test, load_vhosts with conftest, setup_tls (Model/Pki.lean) and the start of Model/Config.lean and Model/Deploy.lean | iff for the check; for the start, every step of config_send succeeds when its files can be opened, then C38 |
| C115 | load_ca, validate_against_ca (Model/Pki.lean); X509_verify_cert is a parameter | case analysis |
| C116 | the models of C112 and the upstream connection (Model/Upstream, Model/Proxy) | composition of C112's chain with C32 (rule), C17 (certificate), C11 (request line), C106 (upstream connection), C31 (reply); the block of the file is read with a small specification of its own (Spec/DeployUp) |
| C117 | the models of C112, apply_fastcgi on the received configuration (Model/DeployCgi), fcgi_req and fcgi_read (Model/Fcgi) | composition of C112's chain with the location the file puts in force, C28 (framing), C30 (parameters), C29 (reply); the fastcgi options are read with a small specification of their own (Spec/DeployCgi) |
| C118 | a server process with any number of the connections of C105, pointers into the configuration marked with the number of purges before them (Model/Live) | simulation (a callback that does not read the host does the same whatever it points to) and an invariant over histories; false in general: general theorems for the five windows and a witness |
| C119 | the two buffers of a connection in the event model of C105 (Model/TlsIo) | invariants over histories: an input bound for a connection that waits for a request, an output bound for replies the server makes itself; false in general: growth theorems by induction on the pieces and a witness for every bound |
| C120 | setresuid and setresgid of compat and the drop in proc_run over the kernel's rules for ids (Model/Creds) | case analysis of the drop with refusals; induction over later calls |
| C121 | the splay tree at the level of pointers and memory, and the steps of server_accept and client_close that use it (Model/Splay) | separation: the tree and the two chains of SPLAY are disjoint parts of memory; invariant of the loop; induction over histories |
| C122 | the buffer of puny_decode after any outcome, the name handle_handshake leaves, log_request of gmid.c and ge.c with the pointers of c->iri (Model/LogName) | agreement with the decoder of C12/C14; the name is kept by every event, by cases over the handlers and induction over histories; characterisation of the one undefined case; witnesses |
| C123 | the same | the parts fit, so nothing is cut; characters of each part; witness |
| C124 | the loop of serve with struct address in memory and the two lists that share its link (Model/GeServe) | invariant: both lists are the same chain; induction over the addresses; C98 for the certificate |
| C125 | proxy_setup_tls, proxy_handshake and proxy_init with the client side of libtls; SSL_connect's outcomes are inputs (Model/UpTls), joined to the parsed configuration (Model/Actions) and the connection after the handshake (Model/Upstream) | induction over the events: something is carried only after a completed handshake; C97 for the names, C111 for the versions, C70's values for the options of the block, C106 for what is sent |
| C126 | getopt(3), main, parse_debug, parse_proxy, load_tls_conf, connectto and get of gg.c (Model/Cli) over the TLS client of Model/UpTls and the reply handling of Model/Clients; resolver, files, SSL_connect are inputs | getopt is shown to accept exactly an inductive grammar of option words; induction over the options for the values; cases of the run, with C81, C97 and C58 for its parts |
| C127 | main and open_input_file of titan.c with pledge(2) as a parameter (Model/Cli) over titanRequest, iomux and titanLoop (Model/Clients) | the same grammar; induction over the copy of standard input; C84 for the request line, C82 for the data; the name check and the certificate on OpenBSD refuted |
| C128 | main with -n and main_print_conf (Model/Dump) over mainStart (Model/Actions), configTest (Model/Pki), the lexer (Model/Lex) and the grammar (Model/Grammar) | the dump is shown to be a text with the tokens of a derivation of the grammar (C104_says), by induction over the servers; C72 for what the configuration holds; C114 for the check; the rest of the round trip refuted |
| C129 | safeprint and the end of get in gg.c (Model/SafePrint), over any locale (mbtowc, iswprint) with the two laws of Spec/SafePrint (LocaleOk), which UTF-8 locales meet (Utf8Locale) | induction over the text; the reply is C58's; with a byte-oriented stderr (glibc) refuted: C129_nothing_shown |
| C130 | log.c (Model/Log) with printf's %s %d %u %c %%, an arbitrary strerror, clobbering of errno and failing allocations | printf is shown to be the relation Formats (Spec/Log) by functional induction; each function by cases; lines of the client's choosing and percent signs in the text of an error refuted: C130_forged, C130_percent |
| C131 | step and dispatch of the server (Model/Server), the file of the configuration through C112's chain; fnmatch is any function with the law GlobLaw (Spec/Protect) | every openat of a run is shown to come from a request that passed apply_require_ca and apply_block_return for its own path, with a name that is the path or the index (dispatch_guarded, step_guarded, run_guarded); a name below d is then a path below d (plain_open, C01), for which the block is the first (dirBlock_first, C15) |
| C132 | handle_handshake's waiting, around read_cb (Model/ProxyWait over Model/ProxyProto) | an invariant over the events: bytes are kept back only by the call that has read the header, which has read at most 107 bytes; false for what fits with the header in these: C132_stall |
| C133 | C112's chain from the configuration file to the bytes sent, and gg (Model/Clients) | composition of C112 (the bytes sent, for requests in pieces), C81 (the line) and C58 (what gg makes of a reply in pieces) |
| C134 | arc4random with its buffer, key, block counter and pid, per process, and histories of requests, forks and exits (Model/Rand). ChaCha and getentropy are symbolic: a byte is known by where it comes from | invariants over all histories: the key of a process occurs in no byte that is anywhere else (C134_once_partial); what a Dolev-Yao observer of the memory can compute (C134_forgotten) |
| C135 | C116's relaying gmid, C112's serving gmid, and gg (Model/Clients) | composition of C116 (the line sent upstream parses to the same request and what comes back is passed on), C112 (what the second gmid sends for that line, in pieces) and C58 (what gg makes of the reply) |
| C136 | as C133, for directories and names that are not there | the file handler after the request of C112 (forFiles_step), then C51, C52 and C53's functions, then C58; Spec/FetchDir says which index and `auto index' are in force |
| C137 | as C117, with gg at the other end | composition of C117 with C112's pieces and C58 (Props/FetchCgi) |
| C138 | matches and match_host with a matcher that keeps to POSIX (Spec/Glob) | lemmas on the declarative matching relation; a reference matcher satisfies it (C138_reference), so the hypothesis is met; then C16 and C112 |
| C139 | SIGHUP to the end in all processes: main_configure, config_recv with load_file on files that change, server_configure_done | exact characterisation of when every process takes the configuration: the run on files that always load (C38) decides the run on the real ones, message by message; witnesses for the end of gmid |
| C140 | connected_clients along the histories of C55, handle_siginfo with log_info | a step lemma on how each event changes the connections, an invariant relating the number to the history, independent of the model's states |
| C141 | tls_ssl_error, tls_handshake, tls_read, tls_write, tls_close over the results of OpenSSL's calls; gg's and the relay's reads on top of them | case analysis of tls_ssl_error; invariant over any sequence of calls; composition with C58 and C31; two negations for every reply and every cut |
| C142 | tls_cert_hash, tls_hex_string, tls_get_peer_cert_times, tls_conninfo_populate, tls_handshake, fcgi_req's part about the certificate; timegm is POSIX's formula, gmtime_r its inverse (a hypothesis, met by C142's saysTime_exists) | induction over the digest; injectivity of timegm over all dates by the lengths of years and months; one negation |
| C143 | the TAILQ macros in use, on a memory of cells of two words (a head and an entry alike, which TAILQ_PREV relies on), free(3), config_purge's loops over hosts and what is in them, parse_conf's loop over the macros, popfile | separation by cells: each macro changes only the cells of its list; induction over the list and, for what is in an element, a lemma for any element that owns cells |
| C144 | struct tls_config with the responses, add_matching_kps and setup_tls, the contexts for SNI, tls_servername_cb for each ClientHello, tls_ocsp_stapling_cb; the certificates as bytes and their names by a function, the configuration by C38 | the key pairs of an address are those of the servers that listen there, by induction; invariant over the ClientHellos: key pair and certificate shown are of one server |
| C145 | tls_load_file without a password, tls_config_load_file, tls_keypair_set_key_file and freezero, on a heap that remembers what was in the blocks when they were freed; open, fstat, malloc and read are arbitrary | cases on the outcomes of the system; tls_config_load_file is tls_load_file after a free |
| C146 | proxy_proto_v1_string, and what read_cb logs after proxy_proto_v1_parse (as in C33); getnameinfo is a function | C33's description of the parser bounds the ports; the line is split at its spaces |

## Trusted base

* Lean 4.33.0's kernel.  The property theorems depend on no axioms but `propext`, `Classical.choice` and `Quot.sound` (many on
  none or on `propext` alone); no axiom is added, and no theorem rests on compiled code: `decide` and `decide +kernel` are
  evaluated by the kernel.
* The correspondence between the Lean model and the C source, which is by reading: each definition cites the lines it models.
  Nothing was compiled or run.
* The environment assumed by each part, stated at the top of its module: what the kernel, libevent, libtls, OpenSSL and the C
  library do is either a universally quantified parameter of the theorems (results of open, read, write, stat, getaddrinfo,
  fnmatch, tls_*, X509 verification, key operations, order and size of reads and writes) or one of the conventions above.
  Memory allocation does not fail (the code exits when it does, or the failure is in the parameter).

## What is modelled, and what is not

| file | modelled | not modelled |
|------|----------|--------------|
| iri.c, utf8.c, puny.c, mime.c, dirs.c, utils.c | all that requests and listings depend on, with memory where bounds matter | error strings; validate_against_ca and ssl_* (parameters), the certificate generator of ge |
| server.c | vhost lookup, handshake host selection, client_read/client_write, start_reply, block return, strip, opening of files and directories, listings, log_request, read_cb (PROXY protocol), close and accept with their resources | the event loop itself (any order of events), rate limits, statistics |
| fcgi.c | all of it | the structure padding is the documented wire format |
| proxy.c | all of it: proxy_read, proxy_error, proxy_handshake, proxy_setup_tls, the callbacks, what is sent upstream | - |
| proxy-proto.c | all of it | debug messages |
| config.c | all messages in both directions, purge | socket creation and binding (a filter on the addresses) |
| gmid.c | main with its options, reload, the access log path, the pidfile, printing of the configuration | daemonisation |
| parse.y | the lexer, the grammar, all semantic actions, macros, keyword table, checks | the LALR automaton yacc makes of the grammar and its error recovery (the rules with `error`) |
| crypto.c | the engine callbacks and the dispatcher | the registration of the engine with OpenSSL |
| compat/imsg*.c | both ends of a channel, descriptors included; the ibuf_* calls at the level of memory | SCM_RIGHTS ancillary data layout; several descriptors per sendmsg (never sent) |
| compat/{strlcpy,strlcat,strtonum,memmem,timingsafe_memcmp,vis,recallocarray,reallocarray,freezero}.c | all | — |
| compat/tree.h | SPLAY_INSERT, SPLAY_REMOVE and SPLAY, with memory | the rest, which gmid does not use |
| compat/setresuid.c, setresgid.c | all | — |
| compat/libtls | name checks (tls_verify.c), the choice of a key pair by server name, protocols, tls_connect_common and tls_handshake_client, reading, writing and closing (tls.c:729-927), what is said of the peer's certificate (tls_conninfo.c:31-160) | the rest: handshakes and records are OpenSSL's |
| gg.c, titan.c | the whole run from the command line to the exit status (Model/Cli, Model/Clients), dialling (C103) | -T (alarm), the texts of messages other than the server's |
| proc.c | proc_init, proc_exec, proc_connect, proc_open, proc_accept, proc_dispatch, how it all ends | proc_setup's allocations, failures of fork and execvp |
| sandbox.c | the branch with landlock | the branches with pledge and without a sandbox |
| logger.c, write_pidfile, main_send_logfd | all of it | failing writes |
| ge.c | options, directory and host, data_dir, mkdirs, load_local_cert, gencert (utils.c), log_request, the listen loop | TLS library set-up |
| log.c | all of it (C130), apart from openlog's arguments | which messages the rest of the program writes, apart from those named in properties; %x and field widths |

## Findings: properties the code does not have, and what is missing

For these the manifest says `partial`.  Where a property is false of the code, the negation is proved on a concrete input (the theorem named),
and the part that does hold is proved in general.

* C10: Boundedness, termination and content proved in full. "Reports truncation" is false of the code when path and query are both empty (C10_truncation_unreported is a concrete witness); proved otherwise.
* C11: False of the code for escaped characters (witnesses: %3F changes the resource, %0D%0A injects a line). Proved for requests without escapes before the query, host names and up to 1024 bytes.
* C12: False of the code: a 13 byte name divides by zero (C12_division_by_zero), a 252 byte name writes out of bounds (C12_out_of_bounds), a 254 byte name is left unterminated (C12_unterminated). Proved: memory safety and termination when four times the Punycode fits the buffer; defined arithmetic for extended strings of up to six digits.
* C14: For every name whose labels stand for text under RFC 3492 (unbounded integers) and whose decoding leaves 60 bytes of the buffer free. Labels the RFC rejects are not always rejected (C14_accepts_more).
* C17: Proved when X509_verify_cert answers 0 or 1. False of the code when it fails with a negative value: the request is then served (C17_verify_error_authorises).
* C23: Proved for listening ports up to 32767; above, the port is printed as a negative number (C23_high_port_wrong).
* C24: False of the code for N >= 2: strip N equals strip 1 for every path (C24_strip_n_is_strip_one), and even for N = 1 the result keeps the slash. Proved for N = 0 and 1.
* C29: Any stream, any fragmentation, any interleaving with client writes; false of the code for the status codes 21 to 29 (C29_code_2x), proved for all others.
* C30: The partition is proved when the configured SCRIPT_NAME is a prefix of the path; otherwise the code sends both unrelated (C30_unrelated_script).
* C31: Any fragmentation and interleaving; false of the code for the codes 21 to 29 (C31_code_2x) and for a NUL in the header (C31_nul), proved for all other replies.
* C33: Every well-formed header is accepted, with exactly its addresses, ports and length, and C33_accepts_partial is an exact characterisation of what is accepted. That is more liberal than the protocol (C33_lenient), and for UNKNOWN the length is not assigned (C33_unknown). getaddrinfo is a parameter.
* C34: Safety and delivery for every segmentation and read size, for headers of up to 107 bytes. False of the code for PROXY UNKNOWN (C34_unknown_undefined).
* C35: Proved for connections that came without a header. False of the code otherwise: a stale header is sent (C35_stale), a size wraps around (C35_wraparound), or the family is wrong (C35_family_mismatch).
* C37: Proved when the kernel never returns data from before a descriptor together with it and transfers at least a header at a time. False with the rule of unix(7) on Linux (C37_linux_wrong_message) and for shorter transfers (C37_short_read_loses).
* C39: With the crypto process the keys of server blocks reach no server process (neither in a message nor in the resulting configuration). The full statement is false: C39_relay_keys_sent shows that the private keys of relay client certificates (proxy { cert; key }) are sent to the server processes.
* C40: Proved: a SIGHUP while the main process counts a reload in progress has no effect; a failing file changes nothing in the children; if every file parses, completion is counted exactly when all children acknowledged. After a parse failure the rest is false: conf->prefork is lost, so a later reload is accepted while another is in progress (C40_overlap), or no reload is ever accepted again (C40_stuck).
* C41: Values from any sequence of definitions on the command line and in the file, and what a reload keeps. The rest is false: -D splits at the last "=", so a value containing one defines another name (C41_cmdline_equals).
* C42: Indexes are shared, distinct and stable for every sequence of directives that gives no error; undefined behaviour is excluded when no path is used both with and without a port. The rest is false: strcmp with a null pointer (C42_undefined).
* C43: For numbers that fit in an int, from their text, and for every format. The rest is false: larger numbers wrap around and may be accepted (C43_wraps), prefork 16 is refused although documented (C43_prefork_16), a format ending in a single % is read past its end (C43_trailing_percent).
* C49: False of the code: C49_log_forged. Proved for names and decoded requests without control characters, any certificate.
* C53: The redirect target is the decoded path, not escaped again: proved to lead to the same directory when the path needs no escaping; C53_redirect_elsewhere is the witness otherwise.
* C55: For static files, errors and CGI output, and for the upstream connection when its close notify needs no waiting: released once, not used after, and the connection ends. The rest is false: a directory listing closes a descriptor twice, which can be the socket of another client (C55_listing_closes_other_socket), the upstream TLS context is used after it is freed when the close notify has to wait (C55_upstream_close_use_after_free), and a second request during a FastCGI one leaks descriptors (C55_second_request_leaks).
* C58: Every reply and every fragmentation. False in two corners: without any reply the exit status is 255 (C58_no_reply), and the status 00 counts as success (C58_status_00).
* C59: False of the code: C59_header_injection. Proved for clients that send no escaped line break.
* C60: False of the code: the port text of the request is compared, and it is empty when omitted (C60_for_host_default_port). The matching rule as implemented is C32.
* C62: Proved when no FastCGI application is involved. False otherwise: C62_second_request.
* C63: False of the code, which reads at a fixed offset of the subject: C63_wrong_name. Proved when the common name comes first.
* C68: For every sequence of tokens, includes, macros and errors, when no file or macro has a NUL byte. With one in an included file it is false: the parsing ends there and only the errors of that file are counted (C68_nul_hides_errors).
* C69: Exact for every file on which the parser comes to an end (C69_accepted_partial), which it does under the conditions of C69_defined_partial. The others are undefined behaviour or fatal: C42_undefined, C43_trailing_percent, media types of 128 bytes and more. yacc itself is not modelled: a file is the sequence of its directives.
* C70: Proved when no server has options after its locations. Otherwise false: such an option is applied to the last location (C70_option_misplaced: a whole server is left without the client certificate it is to require).
* C73: Proved for everything but the chroot directory, and with it when the file names one or names no user. Otherwise false: the home directory of the user is forgotten (C73_chroot_lost), so that the access log is opened elsewhere.
* C74: Proved when the new file gives the log style, or the one in use is the default. Otherwise false: C74_log_style_kept.
* C75: Proved for all but local0, which is not recognised (C75_local0).
* C76: What applies is characterised exactly: log off anywhere wins. The property is false: C76_log_on_ignored.
* C77: The options set by the first matching location are in effect, and those of the server when none matches. The rest is false: for the options it does not set the later locations are not ignored (C77_later_not_ignored).
* C78: Proved when the keys named are there and RSA operations succeed; a failing ECDSA signature is reported. The rest is false: a failing RSA operation ends the server process that asked for it (C78_rsa_failure_fatal).
* C79: Proved as long as each request finds its key. The rest is false: between RECONF_START and the key no request does, even when the certificate is unchanged (C79_request_during_reload).
* C80: Proved for terminated hashes and enough room. The rest is false: C80_overflow.
* C81: Proved for IRIs without a fragment; in a fragment parse_iri accepts any bytes, so the request can be split (C81_fragment_splits_request).
* C82: Proved for files of at most one stdio block. The rest is false: the second block is never sent and titan waits forever (C82_only_first_block, C82_big_file_hangs).
* C84: The line sent is characterised exactly, and names the resource when nothing needs an escape. The rest is false: escapes are undone (C84_escaped_break_splits, C84_escaped_space_refused), the port is dropped (C84_port_dropped).
* C89: Proved when no reload failed before and the path fits. The rest is false: after a failed reload the main process has lost the path, so that SIGUSR1 ends the access log (C89_failed_reload).
* C90: Proved for messages that are non-empty requests, whatever is in them. The rest is false: the numbers in an IMSG_CTL_PROCFD are not checked (C90_memory; the same goes for the crypto process), and an empty request ends the logger (C90_end).
* C95: Proved but for truncate(2), which a kernel with a landlock before ABI 3 does not restrict (C95_truncate).
* C96: Proved for wrong options. The rest is false: usage() does not end the process, so that stray arguments are ignored (C96_stray_argument).
* C99: False of the code: after the handshake the server is looked up by name among all servers, wherever they listen, so one that listens on the loopback address only answers on the public address to whoever asks for it (C99_answers_elsewhere). Proved for an address all servers listen on.
* C103: `fastcgi socket` with a path of 108 bytes or more is accepted, but the path is truncated when connecting (server.c:657, strlcpy unchecked), so that another socket may be used (C103_long_path).
* C104: `port 1965;` is a syntax error although `port 1965 ;` is not: a semicolon cannot end a number, so the digits before it are read as a string.
* C105: fcgi_error, called because the application closed its side, sets REQUEST_DONE but calls neither client_write nor client_close; if everything the application wrote had been sent by then (no write event pending), the client's connection is never closed (fcgi.c:347-372).
* C107: gemexp copies the name of the directory with strlcpy into PATH_MAX bytes without a check: with a longer name it offers the directory named by the first 4095 bytes.
* C108: with a relative XDG_DATA_HOME or HOME, or HOME=/ on glibc, mkdirs recurses for ever; a directory right below the root is never made.
* C109: gemexp's private key is created with the mode of the umask (0644 with 022); when the generation fails, a key that was there and could not be read is deleted together with the certificate; a gemexp that dies while it writes the certificate leaves an empty one that no later start replaces.
* C111: `protocols "!tlsv1.2,!tlsv1.3,!tlsv1.2"` leaves TLS 1.3 enabled: once everything is excluded the next exclusion starts again from all versions (tls_config.c:239). `all,!tlsv1.1` turns TLS 1.2 off, because the names of the retired versions stand for TLS 1.2 (`C111_old_names`).
* C113: the crypto process does not check that a key is the one of its certificate, and the server processes, with fake keys, cannot: a wrong key is found out by the clients; and since the first pki with the name is used, a server with the wrong key breaks the others with the same certificate.
* C114: gmid -n does not look at the files of CAs, OCSP responses and relay certificates; accepts keys that are neither RSA nor EC, which is fatal at the start with the crypto process; and refuses keys that do not match, with which gmid starts.
* C115: only the first certificate of a file of CAs is used (load_ca); intermediate certificates sent by the client are ignored (validate_against_ca).
* C116: Proved for requests without escapes before the query (C11 has the counterexamples) and plain replies (C31).
* C117: Proved for servers whose options precede their locations (C70), certificate texts of at most 60000 bytes (C28_long_value) and replies whose code is not 21-29 (C29_code_2x).
* C118: Proved for reloads that find every open connection closed or with its reply header queued. The rest is false: config_purge frees the hosts, relays and addresses (and their TLS contexts) that c->host, c->proxy and c->addr of the open connections point to; what comes next reads them: a ClientHello with a server name or the end of a handshake without one (C118_hello_stale, C118_noname_stale), a request taken up (C118_request_stale), the end of the handshake with an upstream server (C118_upstream_stale), the header of an application or its end (C118_application_stale). A handshake that ends between IMSG_RECONF_START and the new hosts gets 59 whatever the configurations say (C118_unknown_server).
* C119: Proved for the request (1026 bytes) and for the replies the server makes itself (2062 bytes, one read of a file, or 4103 bytes an entry of one directory). The rest is false: bufferevent_disable(bev, EVBUFFER_READ) (server.c:974) does nothing, EVBUFFER_READ being EV_TIMEOUT, and no watermark is set, so that what a client sends after its request is read and kept without limit (C119_input_grows, C119_not_always); and data of an upstream server is queued as it comes, whether the client takes it or not (C119_relay_grows).
* C120: A user whose id is 4294967295 is (uid_t)-1: with the system's setresuid the drop succeeds and the process stays root (C120_no_such_uid); the replacement in compat notices (C120_compat_notices). No user database should have one, so the property leaves it out.
* C121: The id of a connection is a uint32_t that wraps around: 2^32 connections after one that is still open, another one gets its id and is not put in the table, and when it is closed the one still open is taken out of it (C121_wrap). Nothing bad follows: the table is never searched and its remaining members are still open ones (C121_table).
* C122: when the name of the server that a client asks for starts with a label of 64 bytes or more (or with one that cannot be decoded), c->domain is empty when the 59 is logged and c->iri.host is still NULL: `log style common` and `condensed` pass NULL for %s (gmid.c:160, 172); gemexp does so for every client that sends no name and whose request is refused before it is parsed, as its addresses have no name (ge.c:91) (C122_undefined, C122_gemexp_undefined).
* C123: a decoded newline in a path starts a new line in what gemexp writes to stderr (C123_gemexp_forged), as in the log of gmid (C49).
* C124: serve makes a copy of each address for the list of the host and then inserts the original in both lists (ge.c:222-226); it is harmless because the two lists are always the same (C124_listens).
* C125: the issuer of an upstream server's certificate is never checked (tls_config_insecure_noverifycert, proxy.c:340; C125_issuer): any self-signed certificate with the right name will do, which the manual does not say. `relay-to "."` is accepted, and every request to it gets a 43.
* C126: -P silently turns off name verification (gg.c:424), even when -H says which name to expect, while gg(1) says only -N does (C126_proxy_unverified).
* C127: titan(1) says under CAVEATS that names are verified; titan.c:333 turns it off always, so uploads (and -t tokens, which are secrets) go to whoever answers (C127_name_not_verified). On OpenBSD `titan -C` can never work: titan.c:295 drops "rpath" before titan.c:335 reads the certificate, and the process is killed (C127_certificate_killed). For a fifo or another file that is not regular the announced size is fstat's, not the data's (C127_fifo); read errors on a named file are taken for its end.
* C128: the dump of gmid -nn leaves out everything but chroot, prefork, user and the name, cert and key of the servers, has the servers in the opposite order, so that another one of two that match answers (C128_reversed, C128_not_the_same), and does not escape quotes (C128_quotes).
* C129: with glibc gg shows nothing of what the server says but question marks: fprintf(stderr, "Server says: ") makes the stream byte-oriented, and putwc on it fails (C129_nothing_shown).
* C130: log_info("can't open %s: %s") in client_read has the decoded path of the request: below an unreadable directory a client writes lines of its own among the messages in the foreground (C130_forged); log_warn uses the text of the error as part of a format (C130_percent).
* C131: `strip' undoes the protection of a directory: with `strip 1' on the server, /a/priv/x is the file priv/x and is not subject to location "/priv/*" (C131_strip_bypass). /priv without the slash is answered with a redirect to anyone, so the existence of a protected directory is public (C131_existence).
* C132: read_cb returns TLS_WANT_POLLIN after the header even if bytes after it are in its buffer. If header and first TLS message come together and are 107 bytes or less in all, the server waits for a readable socket and the client for an answer: the connection hangs (C132_stall).
* C134: the fork handler of arc4random is never installed (`_ARC4_ATFORK` is empty, compat/arc4random.h:33) and a fork is noticed by comparing pids only: a process that gets the pid of an ancestor that is gone, through a process that asked for no random bytes itself, repeats the bytes of that ancestor (C134_repeats). gmid's own processes exec after the fork (proc.c:140-160) and begin anew.
* C139: False of the code: with a file that parses, gmid ends unless everybody can use everything it names (C139_ends: no CA file, a file that is not a CA, a certificate being shortened while a server process reads it). Exactly when it goes on is C139_goes_on_partial.
* C141: gg takes a reply that was cut off for the whole when OpenSSL has no error for it (C141_gg_cut: only a warning; with OpenSSL 3, which has one, it does not: C141_gg_whole_partial). A relay hands on a part of a reply as the whole, whatever happened (C141_relay_cut, C141_relay_blind: proxy_error makes no difference between an end and a failure). tls_handshake reports success when the peer ends the connection instead (C141_handshake).
* C142: timegm's -1 is taken for an error by tls_get_peer_cert_times, but it also is 1969-12-31 23:59:59: a client whose certificate begins or ends to be valid then cannot connect (C142_refused, and C142_accepted says that it is the only such second); gmid logs "(null)" as the reason.
* C146: read_cb does not look at what proxy_proto_v1_string returns: when getnameinfo fails for the second address, it logs a buffer of its stack that was not initialised (C146_no_name_undefined).
