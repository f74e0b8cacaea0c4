import json
P=[]
def p(title, statement, quantifier, why, anchors):
    P.append(dict(id="C%02d"%(len(P)+1), title=title, statement=statement, quantifier=quantifier, why_tests_cant=why, anchors=anchors))

# ---- IRI
p("Accepted request paths cannot escape the document root",
  "Whenever parse_iri accepts a request, the path it hands out does not start with '/', and once split on '/' has no '.' or '..' component and no empty component other than a single final one (a trailing slash); it contains no NUL byte. This holds after percent-decoding, so %2e%2e and %2F cannot smuggle a traversal.",
  "every NUL-terminated byte string given to parse_iri",
  "the byte strings, their encodings of dots and slashes and the nestings of '..' are unbounded; a test only samples them",
  ["iri.c:parse_iri", "iri.c:parse_path", "iri.c:path_clean"])
p("Path normalisation is exactly dot-segment removal",
  "The path returned by parse_iri is the decoded path with its components processed left to right: empty and '.' components are dropped, '..' removes the previous surviving component (or nothing at the root), components are joined with '/', and a trailing slash is kept iff the decoded path ended in '/' and something survived.",
  "every decoded path, of any length and depth",
  "the in-place two-pointer rewriting must agree with the component-stack specification on every string",
  ["iri.c:path_clean", "iri.c:parse_path"])
p("Path normalisation is idempotent",
  "Normalising a path already produced by the normaliser leaves it unchanged, and never makes a path longer.",
  "every byte string",
  "a property of all outputs of the function",
  ["iri.c:path_clean"])
p("Percent-decoding is exact, single-pass, and never produces NUL",
  "For accepted requests, host and path are the raw text with every %XY escape replaced once by the byte 0xXY and every other byte kept; a decoded '%' is not decoded again; malformed escapes and %00 make the request be rejected.",
  "every byte string given to parse_iri",
  "interactions of escapes with the scanning position are unbounded",
  ["iri.c:parse_pct_encoded", "iri.c:pct_decode", "iri.c:parse_path", "iri.c:parse_authority"])
p("Scheme and host are case-normalised",
  "In an accepted IRI the returned scheme and (non-bracketed) host contain no upper-case ASCII letter, and equal the input text with ASCII letters lower-cased (after decoding, for the host).",
  "every accepted IRI",
  "all letters in all positions, including letters produced by percent-decoding",
  ["iri.c:parse_scheme", "iri.c:parse_authority"])
p("Port numbers are parsed exactly and bounded",
  "An accepted IRI has port_no <= 65535; it is 1965 when no ':' follows the host, otherwise the decimal value of the digits after ':' (0 if there are none); larger values are rejected, without wrap-around.",
  "every byte string, every number of digits",
  "digit strings are unbounded and the accumulator is a fixed-width integer",
  ["iri.c:parse_port", "iri.c:parse_authority"])
p("parse_iri accepts exactly its grammar",
  "parse_iri accepts a string iff it is scheme '://' authority [ ':' port ] [ '/' path [ '?' query ] [ '#' fragment ] ] for the stated character classes, and returns exactly the components of that decomposition.",
  "every NUL-terminated byte string",
  "acceptance must be characterised on both sides for every string",
  ["iri.c:parse_iri"])
p("encode_path is a bounded, safe and invertible encoding",
  "encode_path never writes outside the len-byte buffer and always leaves it NUL-terminated; it returns 0 iff the whole encoding fits; then the output consists only of RFC 3986 path characters and percent escapes and percent-decoding it yields the input; on failure the output is a prefix of the encoding.",
  "every path and every buffer length >= 1",
  "all byte values, all lengths and all truncation points",
  ["iri.c:encode_path"])
p("UTF-8 validation accepts exactly RFC 3629 multibyte sequences",
  "A non-ASCII character in an IRI is accepted iff it is a well-formed UTF-8 sequence (no overlong form, no surrogate, at most U+10FFFF) and exactly that sequence is consumed.",
  "every byte string",
  "the automaton must agree with the RFC on every byte sequence, including truncated ones",
  ["utf8.c:utf8_decode", "utf8.c:valid_multibyte_utf8"])
p("serialize_iri is bounded and reports truncation",
  "serialize_iri writes at most len bytes, always NUL-terminated, the result is the (possibly truncated) text scheme://host/path[?query], and it returns success iff nothing was truncated.",
  "every parsed IRI and every buffer length >= 1",
  "all component lengths and truncation points",
  ["iri.c:serialize_iri", "compat/strlcpy.c", "compat/strlcat.c"])
p("The request relayed upstream denotes the resource that was requested",
  "For an accepted request, the line sent to the upstream server by the reverse proxy parses back to the same scheme, host, path and query, and is a single CRLF-terminated line.",
  "every accepted request",
  "depends on all decoded bytes of host and path",
  ["iri.c:serialize_iri", "proxy.c:proxy_enqueue_req"])
p("Punycode host decoding is memory safe and total",
  "puny_decode, for any host name and the buffers the server uses, never writes outside the output buffer, never divides by zero, and on success leaves a NUL-terminated string.",
  "every host name (attacker-controlled through SNI and the request line) and buffer size",
  "needs adversarial digit strings and label-length combinations",
  ["puny.c:puny_decode", "puny.c:decode", "puny.c:insert", "puny.c:adapt", "puny.c:copy_label"])
p("Names without punycode labels are copied verbatim",
  "puny_decode of a name with no 'xn--' label succeeds whenever its labels fit the buffers and yields the same name.",
  "every host name without xn-- labels",
  "all label shapes and lengths",
  ["puny.c:puny_decode", "puny.c:copy_label"])
p("Punycode labels decode per RFC 3492",
  "For an xn-- label whose arithmetic does not overflow, puny_decode's output label is the UTF-8 encoding of the RFC 3492 decoding of the label.",
  "every label",
  "bootstring decoding is a generalised variable-length integer scheme over unbounded strings",
  ["puny.c:decode", "puny.c:adapt", "puny.c:insert", "puny.c:digit_value"])
# ---- vhost/locations
p("Per-location options: first matching location that sets the option wins",
  "For lang, default type, index, auto index, block return, root, strip, client CA and log: the effective value for a path is that of the first location block, in configuration order, which both sets the option and matches the path; otherwise the server-level value; otherwise the documented default. fastcgi additionally stops at the first matching 'fastcgi off'.",
  "every server configuration, every path, every glob-matching relation",
  "all orderings and overlaps of location blocks",
  ["server.c:vhost_lang", "server.c:vhost_default_mime", "server.c:vhost_index", "server.c:vhost_auto_index", "server.c:vhost_block_return", "server.c:vhost_fastcgi", "server.c:vhost_dirfd", "server.c:vhost_strip", "server.c:vhost_require_ca", "server.c:vhost_disable_log"])
p("Virtual host selection",
  "After the handshake the connection is bound to the first configured server whose name or one of its aliases matches the decoded SNI (or the listening address when there is none); with no match or an undecodable name the reply is '59' and no request is ever processed.",
  "every configuration, every SNI value",
  "all orderings of servers and aliases",
  ["server.c:handle_handshake", "server.c:match_host"])
p("Client certificates are enforced before anything is served",
  "When the effective configuration for a request requires a client CA (location or relay-to), a request without certificate gets '60', one with a certificate that does not verify gets '61', and in neither case is a file opened, a FastCGI application or upstream contacted, or a block-return applied.",
  "every configuration, request and certificate-verification outcome",
  "all combinations of rules, in particular overlapping locations",
  ["server.c:client_read", "server.c:apply_require_ca", "server.c:apply_reverse_proxy", "server.c:check_matching_certificate", "utils.c:validate_against_ca"])
p("Requests for another host or scheme are refused",
  "If no relay-to rule matches, a request whose scheme is not gemini or whose decoded host differs (ignoring ASCII case) from the one negotiated via SNI is answered '53' and nothing is opened.",
  "every request and server configuration",
  "all hosts, schemes and configurations",
  ["server.c:client_read"])
p("Malformed requests are rejected with 59",
  "A request line that exceeds the maximum length, contains a NUL byte, does not parse as an IRI, or whose host does not decode gets exactly one '59' reply and no other effect, however the bytes are split into TLS reads.",
  "every byte stream and every way of splitting it into reads",
  "all fragmentations of all streams",
  ["server.c:client_read", "server.c:client_tls_readcb"])
p("Request handling follows a fixed precedence",
  "A well-formed request is handled by exactly one of: relay-to, refuse (53), client-certificate failure, block return, FastCGI, file/directory, in that order of precedence.",
  "every configuration and request",
  "all combinations of overlapping rules",
  ["server.c:client_read"])
p("Reply headers are bounded and well-formed",
  "Whatever the code and meta, the bytes queued by start_reply are one header '<code> <meta>[;lang=..]\\r\\n' of at most 1029 bytes; an oversized header is replaced as a whole by '40 internal error\\r\\n', never truncated or sent partially.",
  "every code, meta string, language and previously queued output",
  "all lengths around the boundary",
  ["server.c:start_reply"])
p("At most one reply header per connection",
  "Over any sequence of network events, at most one response header is queued on a connection for the native (non FastCGI, non relayed) handlers, and body bytes follow only a 20 header.",
  "every sequence of read, write, timeout, error and file events",
  "event orders are unbounded",
  ["server.c:client_read", "server.c:client_write", "server.c:client_error", "server.c:start_reply"])
p("Block-return text expansion",
  "The meta of a block return is the configured text with %% %p %q %P %N replaced by '%', the (stripped) path with a leading slash, the query, the local port and the server name, truncated to the buffer; every other byte is kept in order.",
  "every format accepted by the configuration parser, every path, query, name",
  "chunking of literals through a 32-byte scratch buffer makes behaviour length dependent",
  ["server.c:fmtbuf", "parse.y:check_block_fmt"])
p("strip N removes exactly N leading path components",
  "For 'strip N' the path used for the lookup is the request path without its first N components (empty if there are fewer).",
  "every path and N",
  "all depths and counts",
  ["utils.c:strip_path", "server.c:client_read"])
p("Files are opened relative to the configured root with a relative, dot-dot free name",
  "Every name handed to openat by the file handler is nonempty, relative, without '..' components, and the directory is the root selected for that path.",
  "every accepted request and configuration",
  "all requests, strip values and location sets",
  ["server.c:client_read", "utils.c:strip_path"])
p("MIME type lookup",
  "mime() returns the type mapped to the extension after the last dot of the last path component if there is one (binary search agrees with membership), text/gemini for gmi/gemini when not overridden, and otherwise the location/server default.",
  "every mapping table and path",
  "all tables sizes and orders; binary search correctness",
  ["mime.c:mime", "mime.c:path_ext", "mime.c:sort_mime", "mime.c:add_mime"])
p("The mime table never loses or corrupts entries as it grows",
  "After any sequence of add_mime calls the table contains exactly the added pairs in order, every write is inside the allocated array, and over-long names are rejected without change.",
  "every sequence of additions",
  "growth policy is exercised only by long sequences",
  ["mime.c:add_mime", "mime.c:init_mime"])
# ---- fastcgi
p("FastCGI parameters are received by the application exactly as sent",
  "A FastCGI application decoding the record stream produced for a request obtains the same request id, role and list of name/value pairs; each record is padded to a multiple of 8 bytes and the parameter stream is properly terminated.",
  "every list of parameters and lengths within the 16-bit record bound",
  "length encodings vary with sizes",
  ["fcgi.c:fcgi_begin_request", "fcgi.c:fcgi_send_param", "fcgi.c:fcgi_end_param", "fcgi.c:prepare_header"])
p("FastCGI response reassembly is independent of fragmentation",
  "The reply header and body delivered to the client depend only on the concatenation of the STDOUT payloads sent by the application, not on record sizes, padding, interleaved STDERR records or socket read boundaries.",
  "every byte stream from the application and every way to split it",
  "all fragmentations",
  ["fcgi.c:fcgi_read", "fcgi.c:fcgi_handle_stdout"])
p("FastCGI script name and path info partition the request path",
  "SCRIPT_NAME followed by PATH_INFO is the request path (with leading slash), and the search/query variables carry exactly the query.",
  "every path, strip and location",
  "all path shapes",
  ["fcgi.c:fcgi_req", "fcgi.c:path_translate"])
# ---- proxy
p("Relayed replies are validated and passed through unchanged",
  "An upstream reply whose first line is a valid gemini header is relayed (header and body bytes) unchanged whatever the read boundaries; an invalid or oversized header yields an error line of gmid itself ('43 protocol error', or 40 when only slightly too long) and nothing of the upstream data reaches the client.",
  "every upstream byte stream and fragmentation",
  "all fragmentations and header shapes",
  ["proxy.c:proxy_read"])
p("relay-to rule selection",
  "The relay chosen is the first one whose protocol, host and port patterns all match, with omitted patterns defaulting to gemini, * and *.",
  "every list of relay rules and every request",
  "all orders and overlaps",
  ["server.c:matched_proxy"])
p("PROXY protocol v1 header parsing",
  "The parser accepts exactly the lines 'PROXY TCP4|TCP6 src dst sport dport\\r\\n' and 'PROXY UNKNOWN...\\r\\n', reports the addresses and ports written there, and consumes exactly the line.",
  "every byte buffer",
  "all header shapes and truncations",
  ["proxy-proto.c:proxy_proto_v1_parse", "proxy-proto.c:check_proto_v1", "proxy-proto.c:check_ip_v1", "proxy-proto.c:check_port_v1"])
p("Bytes following the PROXY header reach TLS unchanged",
  "On a listener with 'proxy-v1', the TLS layer reads exactly the bytes the peer sent after the PROXY line, in order, without loss, duplication or out-of-bounds reads, for every segmentation of the stream.",
  "every stream and every split into socket reads and TLS read sizes",
  "all fragmentations",
  ["server.c:read_cb", "proxy-proto.c:proxy_proto_v1_parse"])
p("The PROXY header sent upstream is well-formed and accepted by the parser",
  "The line written to an upstream with 'proxy-v1' is either nothing or a complete line which the project's own parser reads back as the same addresses and ports.",
  "every pair of address/port texts",
  "all lengths, including those overflowing the buffer",
  ["server.c:proxy_socket", "proxy-proto.c:proxy_proto_v1_string"])
# ---- imsg
p("imsg framing is lossless under any fragmentation",
  "The sequence of messages a process reads from a peer is exactly the sequence the peer composed (type, ids, payload), whatever the write and read boundaries chosen by the kernel.",
  "every message sequence, every split of the stream",
  "all fragmentations",
  ["compat/imsg-buffer.c:msgbuf_read", "compat/imsg-buffer.c:ibuf_read_process", "compat/imsg-buffer.c:msgbuf_write", "compat/imsg-buffer.c:msgbuf_drain", "compat/imsg.c:imsg_get", "compat/imsg.c:imsg_compose"])
p("File descriptors travel with their message",
  "A descriptor attached to a message is delivered with that message and no other, exactly once.",
  "every message sequence and fragmentation",
  "all fragmentations",
  ["compat/imsg-buffer.c:ibuf_read_process", "compat/imsg-buffer.c:msgbuf_write"])
# ---- config
p("Configuration reaches the workers intact",
  "After a (re)load each server process holds the same hosts, aliases, locations, relays, fastcgi endpoints and mime table, in the same order, as the main process parsed.",
  "every configuration",
  "unbounded lists and order sensitivity",
  ["config.c:config_send", "config.c:config_recv", "config.c:config_purge"])
p("TLS private keys never reach the server processes",
  "When the crypto process is in use, no message addressed to a server process carries private key material; keys are sent only to the crypto process.",
  "every configuration and reload history",
  "all configurations",
  ["config.c:config_send_kp", "config.c:config_send", "config.c:config_crypto_recv_kp"])
p("Reloads are serialised",
  "A reload requested while another is in progress is ignored, and a reload completes exactly when every child has acknowledged; a configuration file that fails to parse leaves the running workers' configuration in place.",
  "every sequence of SIGHUPs, acknowledgements and parse outcomes",
  "interleavings are unbounded",
  ["gmid.c:main_reload", "gmid.c:main_configure", "gmid.c:main_configure_done"])
# ---- parser
p("Macro definitions",
  "A macro's value is that of its latest definition in the file, unless one was given with -D on the command line, which takes precedence over the file; undefined macros are reported.",
  "every sequence of definitions",
  "all orders of definitions",
  ["parse.y:symset", "parse.y:symget", "parse.y:cmdline_symset"])
p("FastCGI endpoints are shared and keep their index",
  "Declaring the same fastcgi endpoint again yields the index of the first declaration; distinct endpoints get distinct indexes; an index handed out keeps denoting the same endpoint whatever is declared later.",
  "every sequence of declarations",
  "all sequences",
  ["parse.y:fastcgi_conf", "server.c:apply_fastcgi"])
p("Configuration numbers and codes are validated",
  "block return codes are accepted iff they are in the documented range, block formats iff every % is followed by a known specifier, strip counts and prefork numbers iff in their documented ranges.",
  "every integer and every format string",
  "boundary values and all strings",
  ["parse.y:check_block_code", "parse.y:check_block_fmt", "parse.y:check_strip_no", "parse.y:check_prefork_num"])
p("Keyword recognition",
  "A word is recognised as a configuration keyword iff it is in the keyword table.",
  "every word",
  "binary search over a table whose order matters",
  ["parse.y:lookup"])
# ---- compat
p("strlcpy/strlcat contracts",
  "They never write beyond the given size, always NUL-terminate when size > 0 (strlcat: when the destination was terminated within size), return the length they tried to create, and truncate to a prefix.",
  "every source, destination and size",
  "all lengths",
  ["compat/strlcpy.c", "compat/strlcat.c"])
p("strtonum contract",
  "strtonum returns v with no error iff the whole string is the decimal representation (with optional blanks and sign) of v and minval <= v <= maxval; otherwise 0 and an error.",
  "every string and bounds",
  "all strings",
  ["compat/strtonum.c"])
p("memmem contract",
  "memmem returns the first occurrence of the needle, and null iff there is none.",
  "every haystack and needle",
  "two-way string matching over unbounded strings",
  ["compat/memmem.c"])
p("timingsafe_memcmp contract",
  "The sign of the result is the lexicographic order of the two buffers as unsigned bytes, zero iff equal, and every byte is inspected irrespective of contents.",
  "every pair of equal-length buffers",
  "all byte contents",
  ["compat/timingsafe_memcmp.c"])
p("Log lines cannot be forged",
  "Every request is logged as a single line with no control bytes from the client.",
  "every request",
  "all bytes that can be smuggled by percent-encoding",
  ["gmid.c:log_request", "compat/vis.c:strnvis"])
p("strnvis output is bounded and printable",
  "strnvis writes at most size bytes, NUL-terminates, and its output contains only graphic ASCII characters (no control or blank bytes, with the flags used), and decodes back to the input, or to a prefix of it if the destination is too small; for printable input, double quotes are always escaped.",
  "every input and size",
  "all bytes and truncation points",
  ["compat/vis.c:strnvis", "compat/vis.c:vis"])
# ---- files/dirs
p("Static files are delivered completely",
  "If reads and writes succeed, the client receives the header followed by exactly the bytes of the file.",
  "every file size and every sequence of read sizes and write events",
  "sizes that are multiples of the read buffer, empty files, etc.",
  ["server.c:client_write"])
p("Directory listings",
  "A generated index lists every directory entry except '.', (and '..' at the root), once, sorted, each as a link line whose target decodes to the entry name, with a slash for directories.",
  "every directory content",
  "all names and counts",
  ["server.c:server_dir_listing", "server.c:client_write", "dirs.c:scandir_fd"])
p("Directory requests are canonicalised",
  "A request for a directory without trailing slash is answered with a redirect to the same path plus '/', and one with it is never redirected.",
  "every path",
  "all paths",
  ["server.c:open_dir", "server.c:redirect_canonical_dir", "utils.c:ends_with"])
# ---- crypto
p("The crypto process signs with the requested key only",
  "A private key operation is performed with the key whose public-key hash was named in the request, and its result is returned to the requester under the same request id.",
  "every set of keys and request sequence",
  "all key sets",
  ["crypto.c:get_pkey", "crypto.c:crypto_dispatch_server", "crypto.c:rsae_send_imsg", "crypto.c:ecdsae_do_sign"])
# ---- lifecycle
p("Connection resources are released exactly once",
  "For every connection and any order of close events, the TLS contexts and descriptors are freed exactly once and never used afterwards.",
  "every sequence of tls_close outcomes",
  "all event orders",
  ["server.c:client_close", "server.c:client_close_ev", "server.c:client_proxy_close"])
p("Listen addresses are not duplicated",
  "After parsing, no two listening addresses are equal, and every address requested by some server is in the list; conflicting proxy-v1 settings are an error.",
  "every sequence of listen directives",
  "all sequences",
  ["parse.y:add_to_addr_queue", "parse.y:listen_on"])
p("Lexer push-back",
  "A character pushed back by the lexer is the next one read, and several are returned last-in first-out, without losing input.",
  "every sequence of gets and ungets",
  "all sequences",
  ["parse.y:igetc", "parse.y:lgetc", "parse.y:lungetc"])
p("gg exit status and output",
  "gg exits 0 iff the server replied 2x (or the status code otherwise) and prints exactly the body in body mode, whatever the fragmentation.",
  "every reply and fragmentation",
  "all fragmentations",
  ["gg.c:get", "gg.c:main"])
# ---- added while modelling
p("A reply header is a single line",
  "Every reply header the server queues is one line: no carriage return or newline occurs before the CRLF that ends it, so a client cannot make the server emit text of its choosing as a second header or as a body.",
  "every history of bytes received, write events and failures on a connection, and every configuration whose own texts have no line breaks",
  "it must hold for every path and query a client can send",
  ["server.c:start_reply", "server.c:fmtbuf", "server.c:redirect_canonical_dir"])
p("A relay-to rule for a host applies to requests on the default port",
  "A `for-host` without a port (documented as the default 1965) applies to every request for that host on port 1965, whether the port is written in the request or not.",
  "every rule and every request",
  "all rules and spellings of the request",
  ["server.c:matched_proxy", "parse.y:proxy_opts", "iri.c:parse_port"])
p("Request handling is defined on every history",
  "Whatever bytes are received, in whatever pieces, and whatever write events, timeouts and errors happen, handling a connection performs no out-of-bounds access in the request handler: the parser, the reply formatter, the directory listing.",
  "every history of events on a connection, every configuration accepted by the parser, every behaviour of the file system",
  "all histories",
  ["server.c:client_read", "server.c:client_write", "server.c:client_error", "server.c:fmtbuf"])
p("A connection acts on at most one request",
  "Once a request has been acted on, nothing received later on the same connection makes the server open a file, contact an upstream or an application.",
  "every history of events on a connection",
  "all histories, including a second request arriving at any moment",
  ["server.c:client_read", "server.c:start_reply"])
p("The logged name is the common name of the client certificate",
  "When the client provides a certificate whose subject has a common name, the log shows that name (encoded by vis(3)).",
  "every certificate subject",
  "all subjects and orders of their attributes",
  ["gmid.c:log_request"])
p("Quoted strings in the configuration mean what they say",
  "Any string of at most 8094 bytes without NUL, newline or the bytes 1 and 2, and not ending in a backslash, written between quotes with a backslash before the quote, spaces and tabs, is read back as that very string.",
  "every string, either quote, any text after it",
  "all strings, including those with backslashes anywhere",
  ["parse.y:yylex", "parse.y:lgetc"])
p("Reading a configuration file ends and stays within its buffers",
  "Whatever bytes the configuration files have, the lexer returns a token after finitely many steps and never writes outside of its token buffer.",
  "every file contents, every stack of included files, all the macros set in them, and those of the command line without the bytes 1 and 2",
  "all inputs, in particular at the boundary of the buffer and with any expansion of macros",
  ["parse.y:yylex", "parse.y:findeol", "parse.y:lgetc"])
p("Comments are not part of the configuration",
  "A comment, from # to the end of the line, is read as the end of that line alone.",
  "every comment text and every place between tokens",
  "all texts",
  ["parse.y:yylex"])
p("Macros are replaced by their value",
  "$name is the value of the macro as one string, whatever it contains; @name is its text, as if written in the file in its place; a macro that is not defined is an error.",
  "all names, values and text after them",
  "all values and contexts",
  ["parse.y:yylex", "parse.y:symget"])
p("A configuration with an error in it is refused",
  "If an error is reported while a configuration is read, in it or in any file it includes, the configuration is refused.",
  "all contents, includes and macros, and errors reported by the lexer or by the parser at any moment",
  "all nestings of files and places of the error",
  ["parse.y:parse_conf", "parse.y:popfile", "parse.y:yyerror"])
p("A configuration is accepted exactly when it is valid",
  "parse_conf returns success exactly for files whose options are valid (sizes, ranges, absolute paths, known protocols and log styles), whose servers have a certificate and a key, whose proxy blocks say where to relay to, whose addresses resolve, and none of whose addresses is wanted both with proxy-v1 and without.",
  "every sequence of directives, every answer of the resolver",
  "all configurations",
  ["parse.y:parse_conf", "parse.y:conf", "parse.y:servopt", "parse.y:locopt", "parse.y:proxy_opt"])
p("An option applies to the block it is written in",
  "After an accepted file, each server, location and proxy block has exactly the options written in it, untruncated, the last one counting when an option is repeated.",
  "every accepted file",
  "all sequences of directives, in any order",
  ["parse.y:servopt", "parse.y:locopt", "parse.y:advance_loc", "parse.y:advance_proxy"])
p("The last matching server of the file serves a name",
  "When several servers of the file match a name, by their own name or an alias, the one written last serves it.",
  "every accepted file, every name, every pattern matcher",
  "all files and names",
  ["parse.y:vhost", "server.c:handle_handshake"])
p("Global settings and addresses are those of the file",
  "After an accepted file the global settings are those it gives (the last one counting) or the defaults, and every server has its certificate and key and listens exactly on the addresses of its listen directives, or on the default host and port in effect at its place in the file.",
  "every accepted file, every answer of the resolver",
  "all sequences of directives",
  ["parse.y:option", "parse.y:log", "parse.y:vhost", "parse.y:listen_on"])
p("Reloading an unchanged file changes nothing",
  "A SIGHUP with the configuration file unchanged leaves the configuration as it is, including the place of the access log.",
  "every file with which the program starts",
  "all files",
  ["gmid.c:main_reload", "config.c:config_purge", "gmid.c:main_send_logfd"])
p("Reloading a file has the effect of starting with it",
  "A SIGHUP with a new file leads to the configuration that a start with that file leads to, but for the number of server processes and the chroot.",
  "every two files with which the program starts",
  "all pairs of files",
  ["gmid.c:main_reload", "config.c:config_purge", "config.c:config_new"])
p("The documented syslog facilities can be used",
  "syslog facility accepts daemon, ftp, local0 to local7 and user, in any case and with LOG_ before them, and uses the one named last.",
  "every accepted file",
  "all spellings and sequences",
  ["parse.y:log"])
p("The log setting of a location overrides that of its server",
  "A request is logged according to the log setting of the location that applies to it, and according to that of the server only if that has none.",
  "every server, location and path",
  "all configurations and paths",
  ["server.c:vhost_disable_log", "parse.y:locopt"])
p("The first matching location is put into effect",
  "Of several locations that match a path, the first one is put into effect and the later ones are ignored.",
  "every server and path, every pattern matcher",
  "all configurations and paths",
  ["server.c:vhost_lang", "server.c:vhost_block_return", "server.c:vhost_fastcgi", "gmid.conf.5"])
p("A failed private key operation is reported to the caller",
  "An operation requested from the crypto process always returns, with its result or with a failure when it failed.",
  "every interleaving of the calls of any number of server processes, every outcome of the operations",
  "all interleavings and outcomes",
  ["crypto.c:rsae_send_imsg", "crypto.c:ecdsae_send_enc_imsg", "crypto.c:crypto_dispatch_server"])
p("A reload does not disturb handshakes",
  "Private key operations requested while a reload is in progress do not end the crypto process.",
  "every interleaving of the messages of a reload with requests",
  "all interleavings",
  ["crypto.c:crypto_dispatch_parent", "crypto.c:get_pkey", "config.c:config_purge"])
p("A server process cannot corrupt the crypto process",
  "Whatever a server process sends, the crypto process does not read or write outside of its buffers.",
  "every request",
  "all requests, including those an honest server process never sends",
  ["crypto.c:crypto_dispatch_server"])
p("gg asks for exactly the IRI it was given",
  "gg sends the IRI of its argument followed by CRLF, in one request, to the host and port the IRI names or to those of -P; it refuses an IRI that is not well formed.",
  "every IRI and every -P argument",
  "all IRIs",
  ["gg.c:doreq", "gg.c:get", "gg.c:parse_proxy"])
p("titan uploads the whole file",
  "After the request line titan sends the bytes of the file, all of them, in order and nothing else, however the writes are split.",
  "every file, every outcome of the writes",
  "all files and splits",
  ["titan.c:iomux", "titan.c:main"])
p("titan reports the outcome of the upload",
  "titan exits 0 only if the server replied 2x or 3x, printing the address of a redirection, with 2 for another valid reply and with 1 for an invalid one or a failure.",
  "every reply and every order of reads and writes",
  "all replies",
  ["titan.c:parse_response", "titan.c:main"])
p("The request line of titan names the resource",
  "titan sends one line that names the host, path and query of the url with the size, token and mime type added to the path, and refuses when it does not fit.",
  "every url, file size, token and mime type",
  "all urls",
  ["titan.c:main", "iri.c:serialize_iri"])
p("The processes are connected as they should",
  "Once gmid has started, for any value of prefork, two processes are connected exactly when one is the main process or one is a server and the other the crypto process or the logger; each has its own end of one socketpair, the peer has the other end, and no end is shared or used for two peers.",
  "every number of server processes and every pair of processes",
  "any number of instances; a wrong index connects two processes to each other's peers",
  ["proc.c:proc_init", "proc.c:proc_exec", "proc.c:proc_connect", "proc.c:proc_open", "proc.c:proc_accept"])
p("No process gets its configuration before its sockets",
  "Whatever the main process sends to a child after the start, the child handles the first of it only when it has all of its sockets to the other processes.",
  "every process, every number of server processes, every later sequence of messages",
  "all the orders of the messages and numbers of processes",
  ["proc.c:proc_connect", "proc.c:proc_open", "proc.c:proc_dispatch"])
p("gmid ends as a whole",
  "When any of its processes ends, for whatever reason, or the main process is told to stop, all of them end, in whatever order the rest happens; until then none of them ends on its own account.",
  "every process, every order of events, further crashes included",
  "all interleavings of crashes, signals and ends of file",
  ["proc.c:proc_dispatch", "proc.c:proc_kill", "gmid.c:main_sig_handler", "gmid.c:main_shutdown"])
p("Each request is logged once",
  "Each request a server reports ends up as exactly one line in the access log that is then in use (and one in syslog, when that is on), in the order in which they are received and with the text the server sent; no descriptor of a log is leaked or closed twice.",
  "every number of servers, every order of requests and changes of the log",
  "all interleavings of requests and reopened logs",
  ["logger.c:logger_dispatch_parent", "logger.c:logger_dispatch_server"])
p("SIGUSR1 reopens the access log",
  "After SIGUSR1, or after a reload, the requests are logged to the file the configuration in use names, as it is opened at that time, whatever happened before.",
  "every history of signals, reloads that succeed, fail or are ignored, and requests",
  "all histories",
  ["gmid.c:main_send_logfd", "gmid.c:main_reload", "gmid.c:main_sig_handler", "logger.c:logger_dispatch_parent"])
p("A server process cannot harm the logger",
  "Whatever a server process sends, the logger goes on and does not read or write outside of its tables.",
  "every sequence of messages from the server processes",
  "all messages, including those an honest server process never sends",
  ["logger.c:logger_dispatch_server", "proc.c:proc_dispatch", "proc.c:proc_accept"])
p("At most one gmid per pidfile",
  "Of all the gmids started with one pidfile at most one runs at any time; as long as it does the file has its process id and nothing else, others that try do not change it, and a file left behind by a crash does not prevent a start.",
  "every number of gmids, every order of their steps, each ending at any point",
  "all interleavings and crash points",
  ["gmid.c:write_pidfile", "gmid.c:main"])
p("A configuration has one meaning",
  "The grammar of the configuration file gives every sequence of tokens at most one meaning, so that no file is read in a way that depends on how the parser was generated; and every sequence of directives can be written.",
  "every sequence of tokens, of any length and nesting",
  "all configuration files; no test can rule out a second derivation",
  ["parse.y:grammar", "parse.y:conf", "parse.y:servopt", "parse.y:locopt", "parse.y:fastcgi", "parse.y:proxy", "parse.y:types"])
p("The layout of a configuration does not matter",
  "Between tokens, a newline in a configuration is as good as a semicolon (after a number the semicolon needs a blank before it: C104) and one is as good as many; after an open brace and at the start of the file none is needed. None of this changes what the file means, or whether it is valid.",
  "every configuration and every place in it",
  "all configuration files and all ways to lay them out",
  ["parse.y:nl", "parse.y:optnl", "parse.y:grammar"])
p("Every process is what it was started as, without privileges",
  "Each process that gets to work is the one it was started as, the server processes know how many they are, and when a user is configured it runs as that user, with the groups of that user only, inside the configured chroot or else the home of the user. If nothing fails, all processes get to work.",
  "every command line, configuration, user database and failure of a system call, every process and instance",
  "all command lines and all points of failure on the way",
  ["proc.c:proc_exec", "proc.c:proc_run", "proc.c:proc_getid", "gmid.c:main"])
p("The processes are confined",
  "Once a server process is set up it can only read files, and the processes for the keys and the log can not use any; if that cannot be arranged they do not run, except where the kernel has no landlock at all.",
  "every kernel, every failure of a system call, every path and every kind of access",
  "all kernels and all failures",
  ["sandbox.c:landlock_init", "sandbox.c:landlock_unveil", "sandbox.c:landlock_lock", "sandbox.c:sandbox_server_process", "server.c:server_init", "crypto.c:crypto_init", "logger.c:logger_init"])
p("A wrong command line starts nothing",
  "A command line with an unknown option, an option without its argument, a macro without a value or an argument that is not an option is refused with an error before anything is started, and gmid -n never starts anything.",
  "every command line",
  "all command lines",
  ["gmid.c:main", "gmid.c:usage", "parse.y:cmdline_symset"])
p("A certificate is accepted only for the names in it",
  "A certificate is accepted for a name exactly when one of its alternative names is that name, up to case, or a wildcard for one label of it; the common name counts only in a certificate without alternative names; an address has to be there as an address. A certificate with NULs in its names is never accepted, and every proper certificate is judged.",
  "every certificate, every name and address",
  "all certificates, including hostile ones, and all names",
  ["compat/libtls/tls_verify.c:tls_match_name", "compat/libtls/tls_verify.c:tls_check_subject_altname", "compat/libtls/tls_verify.c:tls_check_common_name", "compat/libtls/tls_verify.c:tls_check_name"])
p("An address offers the certificates of the servers that listen on it",
  "A listening address has exactly the certificates of the servers that listen on it. Whatever name a client asks for there, it gets one of them: one for that name if there is one, and that of the first such server if it names none.",
  "every configuration, address and name asked for",
  "all configurations with any number of servers and addresses",
  ["server.c:add_matching_kps", "server.c:setup_tls", "server.c:match_addr", "compat/libtls/tls_server.c:tls_servername_cb"])
p("A server answers only on the addresses it listens on",
  "A request is answered only by a server that is configured to listen on the address the request came in on.",
  "every configuration, address and name asked for",
  "all configurations with any number of servers and addresses",
  ["server.c:handle_handshake", "server.c:server_accept", "server.c:match_host"])
p("A message buffer is a queue of bytes",
  "Whatever calls are made on a message buffer of at least a byte, with any arguments, no memory but its own is touched; bytes come out in the order they were put in, a number as it was put in, what does not fit or is not there is refused, and a call that fails changes nothing.",
  "every buffer, every sequence of calls and arguments of up to 64 bits, every failure of an allocation",
  "all sequences of calls and all sizes, including those that overflow",
  ["compat/imsg-buffer.c:ibuf_open", "compat/imsg-buffer.c:ibuf_dynamic", "compat/imsg-buffer.c:ibuf_reserve", "compat/imsg-buffer.c:ibuf_add", "compat/imsg-buffer.c:ibuf_set", "compat/imsg-buffer.c:ibuf_get", "compat/imsg-buffer.c:ibuf_truncate", "compat/imsg-buffer.c:ibuf_get_string"])
p("Every process gets the whole configuration, and the main process keeps no descriptor",
  "Whatever the configuration, every instance of every process gets all messages that are for its process, in order, each file with its own message and in a descriptor of its own; when all is sent the main process has exactly the descriptors it had before, so that reloads do not use them up.",
  "every sequence of messages and files, every number of instances, every choice of descriptor numbers",
  "all configurations and numbers of processes",
  ["config.c:config_send_file", "config.c:config_open_send", "config.c:config_send_kp", "config.c:config_send_socks", "proc.c:proc_range", "proc.c:proc_compose_imsg", "proc.c:proc_flush_imsg"])
p("Arrays that grow",
  "An array kept with recallocarray always holds what its owner expects after any sequence of resizings and writes and whatever the allocator does: what was there is kept, what is new is zero, a size that does not fit in a size_t is refused, a failure changes nothing, no other memory is touched, exactly one block is alive, and every block given back to the allocator held only zeroes. reallocarray asks for exactly the product or refuses; freezero wipes before it releases.",
  "every element size, sequence of resizings and writes, and every answer of the allocator, including failure and rubbish in new blocks",
  "The overflow check, the cases shrink in place / shrink by moving / grow and allocation failures cannot all be tried: they depend on 64 bit sizes no test can allocate.",
  ["compat/recallocarray.c:recallocarray", "compat/reallocarray.c:reallocarray", "compat/freezero.c:freezero", "mime.c:add_mime"])
p("Requests go to the configured upstream",
  "A relay, a FastCGI application and the clients' server are connected to at the first of their addresses that can be reached, or, for a FastCGI socket, at exactly the configured path; when none can be reached the request fails. Descriptors of attempts that failed are closed, no other descriptor is touched, and the one used is new.",
  "every list of addresses, every outcome of socket and connect at each of them, every path, every set of descriptors in use",
  "Which attempts fail, and with which descriptor numbers, depends on the network and on the process; a test sees a few combinations.",
  ["server.c:proxy_socket,fcgi_open_conn,fcgi_open_sock,apply_fastcgi", "gg.c:connectto", "titan.c:dial"])
p("A configuration says what is written in it",
  "Words, keywords, numbers, quoted strings and symbols, with any blanks and comments between them, are read as those very tokens, in that order; a file has one meaning; and every configuration whose strings fit between quotes (at most 8094 bytes, no NUL, newline or bytes 1 and 2, no backslash at the end) can be written in a file that means exactly that.",
  "every text made of such tokens, blanks and comments; every sequence of directives with nested servers, locations, proxies and types of any size",
  "a round trip over all texts and all configurations: strings, numbers and nesting are unbounded",
  ["parse.y: yylex, lgetc, lungetc, grammar, conf, vhost, servopt, locopt, proxy, types"])
p("A reply in progress is carried on to its end",
  "While bytes are queued for a client, or the rest of a file, a directory listing or the closing of the connection is still up to the server, the event loop is asked to call back when the client's socket can be written to, whatever tls_read and tls_write returned before, so no reply stops half-way; and once a reply was started, nothing of it is lost, repeated or reordered, including when tls_write wants to be called again. (Does not hold of the code when a FastCGI application closes its side without FCGI_END_REQUEST after all it wrote was sent: the connection then stays open for good.)",
  "every history of socket events, TLS results, upstream and FastCGI data and environments, of any length",
  "A stall needs a particular interleaving of partial TLS writes, retries and back-end events; a test runs one schedule, and a stall looks like a slow peer.",
  ["server.c: client_tls_readcb", "server.c: client_tls_writecb", "server.c: client_write", "server.c: start_reply", "fcgi.c: fcgi_read", "fcgi.c: fcgi_error", "proxy.c: proxy_read", "proxy.c: proxy_error"])
p("A relayed request reaches the upstream server in full",
  "The connection to an upstream server carries the PROXY line, if one is configured, then the request line, and nothing else: at any moment what was written is a beginning of that and the rest is queued, the event loop will call back to write the rest as long as the connection lasts, and after enough room it is all written, whatever tls_write wants in between. With TLS the PROXY line is written before any TLS data, however write(2) splits it. The reply is read to its end, whatever tls_read wants.",
  "every request, every history of socket events and TLS and write(2) results, of any length",
  "Partial writes, retries and would-block results come in any order; tests see one schedule, usually with a single complete write.",
  ["proxy.c: proxy_enqueue_req", "proxy.c: proxy_tls_readcb", "proxy.c: proxy_tls_writecb", "proxy.c: proxy_write", "proxy.c: proxy_write_cb"])
p("gemexp offers the directory and nothing else",
  "gemexp serves the directory named on its command line, or the working directory, under any name: a file that can be opened is sent, what cannot is 51, a directory without an index is listed, and on no connection is anything outside the directory opened or anyone else contacted. The last -p, -H and -d are in force, with 1965 and localhost for defaults; a bad port, an unknown option or a second directory is refused.",
  "every command line, every directory, every byte sequence sent by a client and every history of the file system",
  "The clients' bytes, the names in the directory and the command lines are unbounded.",
  ["ge.c: serve", "ge.c: main", "server.c: client_read", "server.c: server_open_file"])
p("gemexp makes its data directory",
  "When no certificate directory is given, gemexp uses $XDG_DATA_HOME/gemexp or ~/.local/share/gemexp and makes every missing directory on the way to it, and only these; when one cannot be made, it exits.",
  "every value of the two variables, every state of the file system and every outcome of mkdir(2)",
  "The states of the file system and the values of the variables are unbounded, and the recursion on the path must end for all of them.",
  ["ge.c: data_dir", "ge.c: mkdirs", "ge.c: pdirname"])
p("gemexp keeps a certificate and its key together",
  "gemexp uses the certificate and the key that are there for the host name; when one is missing it generates both, touches no other file, leaves neither when it fails, keeps the key private, and, if it dies in the middle, the next start generates what is missing.",
  "every state of the directory, every host name, umask and result of the generation, and every point at which the process may die",
  "Crash points and the states of the directory cannot be enumerated by tests.",
  ["ge.c: load_local_cert", "utils.c: gencert"])
p("Messages between the processes are delivered",
  "A message that one process of gmid composes for another one is handled by it, once, in the order of composition: at any time a process has handled the first of the messages sent to it and nothing else; a process waits for room in the socket as long as it has something to send and always waits for data; what was received is handled at once; and after enough progress of the socket all is handled. Only a message whose handling is fatal, or the end of the peer, ends a process.",
  "every history of messages composed, socket events and partial reads and writes, any callbacks (which may compose messages themselves), any sizes",
  "Schedules of two event loops and the sizes of partial transfers cannot be enumerated.",
  ["proc.c: proc_dispatch", "proc.c: imsg_event_add", "proc.c: imsg_compose_event", "compat/imsg.c: imsgbuf_read", "compat/imsg.c: imsgbuf_write"])
p("the `protocols` option enables exactly the TLS versions its list says",
  "The string of a `protocols` option is a list of words between commas or colons: each lets versions of TLS in or, with an exclamation mark, keeps them out, and the last word about a version decides (a list that begins with an exclusion starts from all versions). A string with a field that is not a word is refused. The server speaks exactly the versions of the last `protocols` of its file, both TLS 1.2 and 1.3 if there is none, and nothing older ever.",
  "every string given to tls_config_parse_protocols and every configuration file; no bound on the number of words",
  "The strings are unbounded and the meaning of a word depends on all words before it; tests try the documented strings only.",
  ["compat/libtls/tls_config.c:tls_config_parse_protocols", "compat/libtls/tls.c:tls_configure_ssl", "parse.y:option", "server.c:setup_tls", "config.c:config_new"])
p("What is written in the file is what is served",
  "A server process that runs with a configuration file serves what the text of that file says: a client that negotiates the name or alias of a server gets the last server of the file so named, and the file it asks for comes from below the directory which that server, or the first matching location that sets one, says; with the media type that the types of the file, or the defaults, give its extension, and the language in force; byte for byte, then the connection is closed. A resource blocked in the file is answered with the code and text of the block; one that requires a client certificate is refused without it; a name that the file does not have is refused, whatever the client sends.",
  "every text of the configuration file that is accepted, every name negotiated, every request, every content of the directories, every schedule of reads and writes",
  "It composes the lexer, the grammar, the actions, the transfer of the configuration between processes, the loading, the choice of host and location and the reply; no finite set of files and requests covers it.",
  ["parse.y: parse_conf", "config.c: config_send", "config.c: config_recv", "server.c: load_vhosts", "server.c: server_configure_done", "server.c: handle_handshake", "server.c: client_read", "server.c: client_write"])
p("The key of a certificate is found",
  "With the private keys in the crypto process, the name under which the TLS library of a server process asks for an operation with the key of a certificate names, in the crypto process, the key of that certificate: the two compute the same name for the same certificate file, different public keys have different names, and the key is the one of the certificate.",
  "every configuration, every content of the certificate and key files, every library that parses them",
  "The name is computed twice, by different code in different processes, and looked up in a list built by a third; the agreement must hold for every certificate and every set of servers.",
  ["utils.c: ssl_pubkey_hash", "compat/libtls/tls.c: tls_cert_pubkey_hash", "compat/libtls/tls_conninfo.c: tls_hex_string", "compat/libtls/tls.c: tls_configure_ssl_keypair", "config.c: config_crypto_recv_kp", "crypto.c: get_pkey"])
p("gmid -n tells whether gmid would start",
  "If gmid -n says that the configuration is good then gmid starts with it: every file it names can be sent, every process takes the configuration, the server processes set up TLS and open their directories; and if it says that it is not, gmid does not start.",
  "every configuration, every content of the file system, with and without the crypto process",
  "The check and the start are different code, run by different processes; that one implies the other must hold for every configuration and file system.",
  ["config.c: config_test", "server.c: load_vhosts", "server.c: setup_tls", "gmid.c: main", "config.c: config_send"])
p("A client certificate is checked against the CAs of the file",
  "A client is accepted by a location or relay that requires a client certificate exactly when its certificate verifies against the CAs of the configured file.",
  "every file of CAs, every chain of certificates sent by a client",
  "The file may have any number of certificates, and the chain too.",
  ["utils.c: load_ca", "utils.c: validate_against_ca", "server.c: check_matching_certificate"])
p("What a proxy block of the file says is what is relayed",
  "A server process that runs with a configuration file relays what the text of that file says: a request to a server of the file that one of its proxy blocks, the first such, is for, from a client that shows the certificate the block asks for, goes to the host and port of the block's relay-to and nowhere else; the upstream server gets one request line that names the resource the client asked for, after the PROXY line if the block asks for one, all of it if the connection lasts; and the client gets the reply of the upstream server unchanged. Without the certificate the client gets 60 or 61, and when upstream cannot be reached it gets 43, and nothing else.",
  "every configuration file that is accepted, every server and proxy block of it, every request, every history of the two connections",
  "The text of the file, its transfer to the server processes, the choice of the block, the request upstream and the reply are handled by different code in different processes; that they fit together must hold for every file, request and pace of the connections.",
  ["parse.y: proxy, proxy_matches, proxy_opts", "config.c: config_send, config_recv", "server.c: matched_proxy, apply_reverse_proxy", "proxy.c: proxy_enqueue_req, proxy_read, proxy_error, proxy_tls_readcb, proxy_tls_writecb"])
p("What a fastcgi option of the file says is what the application gets",
  "A server process that runs with a configuration file hands requests to the FastCGI applications the text of that file names: a request to a server of the file for a path whose first location that says something about FastCGI, or else the server itself, names an application goes to that application and to no other; what the application receives is one well-formed FastCGI request that tells it the resource, the client, its certificate and the parameters of the file, with the script name and path split at the script name of the file; whatever it answers, in whatever records and at whatever pace, the client gets its header, with the language of the file for text/gemini, and its body, or 42 when there is no header. When it cannot be reached the client gets 42 and nothing else; where the file names no application, or says `fastcgi off`, none is contacted.",
  "every configuration file that is accepted, every server and location of it, every request, client certificate and every reply of the application, however it is cut into records and reads",
  "The text of the file, its transfer to the server processes, the choice of the location, the encoding of the parameters and the decoding of the reply are handled by different code in different processes; that they fit together must hold for every file, request and pace of the connections.",
  ["parse.y: fastcgiopts, fastcgi_conf", "config.c: config_send, config_recv", "server.c: vhost_fastcgi, apply_fastcgi", "fcgi.c: fcgi_req, fcgi_read, fcgi_error"])
p("A reload does not disturb the connections there are",
  "A connection to a server process is not disturbed by SIGHUP: while the process drops its configuration and receives the new one, a client that is connected gets exactly the bytes it would have got without the reload, in a process with any number of other connections and reloads, and no memory of the configuration that was dropped is ever read.",
  "every history of a server process: connections, TLS handshakes, requests, events of clients, of applications and of upstream servers, and configurations dropped and received at any points in between",
  "A reload can come between any two events of any connection; tests reload an idle server.",
  ["config.c: config_purge, config_recv (IMSG_RECONF_START)", "server.c: server_accept, handle_handshake, client_read, start_reply, fmtbuf, matched_proxy", "proxy.c: proxy_enqueue_req, proxy_handshake", "fcgi.c: fcgi_read, fcgi_error", "compat/libtls/tls_server.c: tls_servername_cb"])
p("The memory a connection needs is bounded",
  "The memory a server process keeps for a connection is bounded, whatever the client, the application and the upstream server do: of what the client sends no more than the longest request is kept, and of a reply no more than a fixed amount waits for a client that does not take it.",
  "every sequence of events on a connection: bytes from the client in any pieces before, during and after its request, the client taking any part of the reply or none, data from an application or an upstream server",
  "A client can send for as long as it likes and read as slowly as it likes; a test sends one request and reads the reply.",
  ["server.c: client_read, client_tls_readcb, client_tls_writecb, client_write, start_reply, server_dir_listing", "fcgi.c: fcgi_read, fcgi_handle_stdout", "proxy.c: proxy_read"])
p("Privileges that were given up stay given up",
  "When a user other than root is configured, a server, crypto or logger process that gets to work has the real, effective and saved user and group id of that user and no other group, on systems that have setresuid and setresgid and on those that use the replacements gmid brings along; and no system calls it could ever make to change its ids have an effect. Started by root it gets to work unless the kernel refuses a call.",
  "every user with a user and group id other than (uid_t)-1, every set of ids the process starts with, every refusal of any call by the kernel, every later sequence of calls of the set*id family and setgroups",
  "A test can check the ids once; that none of the three is left over and none of the calls restores root is a statement about all sequences of calls, and the replacements are never used where the tests run.",
  ["proc.c: proc_run", "compat/setresuid.c: setresuid", "compat/setresgid.c: setresgid"])
p("The table of open connections",
  "The table in which the server keeps its connections never makes it touch memory that is not there, nor loop for ever, whatever connections are accepted and closed, in whatever order, and wherever in memory they are put. What is in the table are open connections, never ones that were closed and freed; they are in the order of their ids; and every open connection is in it.",
  "every history of accepted and closed connections of any length, every choice of places the allocator makes for them, hence every shape the tree gets",
  "The tree is rebuilt by pointer surgery at every operation and its shape depends on the whole history; a dangling pointer in it would only be followed later, by an unrelated connection.",
  ["compat/tree.h: SPLAY_GENERATE, SPLAY_INSERT, SPLAY_REMOVE, SPLAY, SPLAY_ASSEMBLE", "server.c: server_accept, client_close, client_tree_cmp"])
p("Logging a reply is always defined",
  "Whatever name a client asks for when it connects, and whatever it sends or fails to send afterwards, writing the line of the log for the reply it gets is defined: no null pointer is printed. A connection keeps the name it got until it is closed.",
  "every name, malformed ones included, every request and history of events, every log format, for gmid and gemexp",
  "The line is made from pointers that are only set by earlier steps, and the steps that were skipped depend on where the request was refused.",
  ["gmid.c: log_request", "ge.c: log_request", "puny.c: puny_decode, decode, copy_label", "server.c: handle_handshake, start_reply", "iri.c: parse_iri"])
p("The log shows the request that was made",
  "The line for a reply shows the address of the client, the code, and the request: its scheme, the name the client asked for when it connected (that in the request if there was none), its path and its query, whole if they fit. gemexp writes exactly one line for each reply.",
  "every request and name, every log format",
  "Log readers depend on every line; what breaks one are bytes chosen by a client.",
  ["gmid.c: log_request", "ge.c: log_request"])
p("gemexp listens on every address it can",
  "gemexp listens on every address of the name it was given that can be bound, on no other, and offers its certificate on each; it gives up only if the name cannot be resolved, if listen fails or if no address can be bound.",
  "every list of addresses and every outcome of socket, bind and listen for each, every place the allocator chooses",
  "The same structure is linked into two lists through one link field, so whether the lists are right depends on every insertion before.",
  ["ge.c: serve", "compat/queue.h: TAILQ_INSERT_HEAD", "server.c: setup_tls, add_matching_kps"])
p("A request is relayed only to the server it is meant for",
  "With use-tls (the default), no byte of a relayed request is sent before a TLS handshake was completed with a version the proxy block allows and, unless it says verifyname off, with a certificate for the name of the upstream server: the sni of the block, or else the host of relay-to. The server is asked for that name, unless it is an address, and shown no certificate but the one of the block. If the handshake fails or takes too long the client gets a 43 and nothing else; if the certificate is for the name the request is sent. With use-tls off the PROXY line, if asked for, and the request line are sent at once. Who issued the certificate is not checked.",
  "every accepted file and every proxy block of it, every order of events during and after the handshake, every certificate and version the peer comes up with, every behaviour of inet_pton",
  "Any certificate and any order of events can come from the network; a test has a few.",
  ["proxy.c: proxy_setup_tls, proxy_handshake, proxy_init, proxy_enqueue_req", "compat/libtls/tls_client.c: tls_connect_common, tls_handshake_client", "compat/libtls/tls_config.c: tls_config_new", "compat/libtls/tls.c: tls_configure_ssl, tls_ssl_cert_verify_cb", "parse.y: proxy_opt"])
p("gg's command line, and whom it talks to",
  "gg goes ahead with exactly the command lines its manual describes (POSIX options with correct arguments, -2 and -3 not together, -C and -K together, one url) and otherwise exits with 1 without contacting anybody; of repeated options the last counts. -n contacts nobody and its exit status tells if the url is a valid IRI. Otherwise gg connects to the -P host and port, or those of the url, at the first of the addresses that accepts (if none does it exits with 1), and sends nothing but the url and a line end, only after a handshake with an allowed TLS version and a certificate for the -H name or the host, unless -N is given. It shows the -C certificate or none, and exits with 0 only if the whole request was sent and the reply was good.",
  "all command lines, files, resolver answers, handshake outcomes, write splittings and replies",
  "the combinations of options, outcomes of the handshake and certificates are unbounded; a test sees one server with one certificate",
  ["gg.c: main, parse_debug, parse_proxy, load_tls_conf, connectto, get, doreq", "compat/libtls/tls_client.c: tls_connect_common, tls_handshake_client"])
p("titan's command line, what it announces and to whom",
  "titan goes ahead with exactly the command lines its manual describes (-K only with -C and defaulting to it, a url, possibly a file) and otherwise exits with 1 without contacting anybody. Without a file it uploads all of standard input, or exits with 1 if a read or write fails; the size it announces is the size of what it read. It connects to the host and port of the url, at the first of the addresses that accepts (if none does it exits with 1), and sends nothing before a handshake with TLS 1.2 or 1.3, then the request line with the size, the token and the mime type, and nothing else than the data; if the connection breaks within the request line it exits with 1. The certificate of the server has to be for the host; with -C the given certificate is shown.",
  "all command lines, standard inputs and read or write failures on the way, files, handshake outcomes, write splittings and replies",
  "failures can come at any read or write, and every certificate would have to be tried",
  ["titan.c: main, open_input_file, dial, iomux", "titan.1"])
p("gmid -n checks the configuration, and -nn dumps it",
  "gmid -n exits with 0 exactly when the program would start with the file, the certificates and keys of its servers can be read and match, and its directories can be opened; otherwise with 1. It writes nothing to the standard output unless -n is given twice and the check succeeds. Then it dumps the configuration: what it writes is a configuration file that says the same as the file that was read.",
  "all configuration files (sequences of directives), contents of certificate, key and directory names, numbers of -n",
  "a round trip through the printer, the lexer and the grammar over all configurations, whose strings and number of servers are unbounded",
  ["gmid.c: main, main_print_conf", "config.c: config_test", "gmid.8"])
p("gg shows what a server says about an error, and nothing harmful",
  "When the reply is not a success, gg writes to the standard error `Server says: ', the text of the server with a question mark in place of each character that cannot be printed and each byte that is not part of a character, and a newline: printable text is shown as it is, and no control character (an escape sequence for the terminal, a newline) is written. It says nothing about a success, nor with -q or -d.",
  "all replies of servers, segmentations of the stream, locales (character encodings and sets of printable characters)",
  "over every reply and every encoding; the text is the server's to choose",
  ["gg.c: safeprint, get", "gg.1"])
p("Messages are written once, whole, and with the error they are about",
  "log_warnx, log_info, log_debug (if verbose), log_warn and fatal write their message once and whole, with its level: in the foreground on a line of its own on the standard error, otherwise to syslogd. log_warn and fatal add the text of the error that errno was when they were called, whatever the calls in between make of errno; errno is as it was; running out of memory loses nothing. fatal and fatalx name the process and exit with 1. A client cannot write lines of its own among the messages.",
  "all formats and arguments, settings, values of errno, outcomes of allocations, texts of errors",
  "over every format and argument, every failed allocation",
  ["log.c: log_init, log_procinit, log_setverbose, vlog, log_warn, log_warnx, log_info, log_debug, vfatalc, fatal, fatalx", "server.c: client_read"])
p("A directory that a location protects is protected from every request",
  "If the configuration file has a block `location \"/d/*\"' with `require client ca' (and no location before it has that option), then on a connection for that server, whatever is sent on it and however the path is spelt, no file below d is opened and d is not listed unless the client has a certificate for which the verification against that CA does not fail; the client gets 60 or 61. With `block return' instead, nobody gets at the files. This is for servers that neither `strip' nor have an `index' with a slash, with a name d that has no character special to fnmatch. (Asking for d without the slash tells whether it exists; with `strip' other paths lead to the same files.)",
  "all configuration files and servers, names of directories, streams of bytes and segmentations, contents of the file system, outcomes of verifications",
  "over every request and spelling, every configuration",
  ["server.c: client_read, open_file, apply_require_ca, apply_block_return, vhost_require_ca, vhost_block_return, vhost_strip", "iri.c", "config.c", "parse.y"])
p("A connection behind a proxy goes on as its bytes come",
  "On an address with proxy-v1, whenever the server waits for the client to send something, the TLS layer has been given everything that has come after the header: no byte that has come is kept back while both sides wait for each other.",
  "all headers that are accepted, bytes that follow them, segmentations, sizes that the TLS layer asks for, orders of arrivals and events",
  "over every segmentation and timing; a connection that hangs is easily taken for a slow one",
  ["server.c: read_cb, handle_handshake, server_accept", "compat/libtls/tls_bio_cb.c: bio_cb_read"])
p("gg gets from gmid what is there",
  "gmid runs with a configuration file and gg is given the URL of a file of one of its servers, which nothing in the configuration keeps from the client: gg sends a line that makes the server send that file, writes exactly the bytes of the file to the standard output and exits with 0, however request and reply are cut on their way and at whatever pace. If the connection breaks, gg exits with 1 and what it has written is a beginning of the file. Where a `block return' applies gg exits with its code and says its text; where a client certificate is missing or does not pass it exits with 60 or 61 and writes nothing.",
  "all configuration files, URLs, contents of files, segmentations in both directions, schedules, points at which the connection breaks",
  "both programs together, over every segmentation and schedule",
  ["gg.c: get, doreq, dorep", "server.c: client_read, client_write, start_reply", "config.c", "parse.y"])
p("Random bytes are given out once, and then forgotten",
  "However many processes there are, one forked from the other, and however they ask for random bytes: each request gets all the bytes it asked for, all of them from a keystream (none is an erased one); no byte of the keystreams is given out twice, to whichever process, as long as no pid is used again; nobody who sees the memory of a process afterwards can compute from it what that process was given before; and no process gets two megabytes without the system being asked for entropy in between.",
  "all histories of requests, forks and exits of any number of processes, all lengths of requests, all values of the number that decides when the system is asked again",
  "every history of forks and requests of any length",
  ["compat/arc4random.c: arc4random, arc4random_buf, _rs_stir, _rs_stir_if_needed, _rs_rekey, _rs_random_buf, _rs_random_u32", "compat/arc4random.h: _rs_forkdetect", "compat/chacha_private.h"])
p("gg gets through a relaying gmid what another gmid has",
  "One gmid relays to another, each with a configuration file of its own, and gg is given a URL that falls under a proxy block of the first. If the second one serves a file for it, the first sends the second a line that makes that send the file, and gg writes exactly the bytes of the file and exits with 0, however the requests and the replies are cut on the four ways and at whatever pace; the same for the index file of a directory, and for the listing of one that has none if the second one is told to list it; if a `block return' of the second applies gg exits with its code and says its text; if there is nothing of that name at the second, or a directory that it does not list, gg exits with 51; if it is a directory and the URL does not end in a slash, with 30 and says the path that does; if the second one cannot be reached gg exits with 43 and writes nothing.",
  "all pairs of configuration files, URLs of at most 1023 bytes without escapes before the query or brackets, contents of files, segmentations on every way, schedules",
  "three programs together, over every segmentation and schedule on four streams",
  ["gg.c: get, doreq, dorep", "server.c: client_read, client_write, start_reply, apply_reverse_proxy", "proxy.c: proxy_enqueue_req, proxy_read, proxy_handshake_cb", "iri.c: serialize_iri", "config.c", "parse.y"])
p("gg gets from gmid what a directory has to offer",
  "gmid runs with a configuration file and gg is given a URL for what is in a directory of one of its servers, which nothing in the configuration keeps from the client. If there is nothing of that name gg exits with 51 and writes nothing. If it is a directory and the URL does not end in a slash, gg exits with 30 and says the path with a slash; if it does, gg writes exactly the bytes of the index file the configuration names for it (index.gmi unless set) and exits with 0; without an index file gg writes, where `auto index' is on, a title and a link to each of the entries in the order of their names and exits with 0, and where it is not, gg exits with 51 and writes nothing. All this however request and reply are cut on their way and at whatever pace.",
  "all configuration files, URLs, directories and their entries, contents of files, segmentations in both directions, schedules",
  "both programs together with every content of a directory, over every segmentation and schedule",
  ["gg.c: get, doreq, dorep", "server.c: client_read, open_dir, redirect_canonical_dir, server_dir_listing, client_write, start_reply", "config.c", "parse.y"])
p("gg gets from gmid what a FastCGI application answers",
  "gmid runs with a configuration file and gg is given a URL for which a server of the file has a FastCGI application, which no relay, certificate or block rule stands before. The line gg sends, however it is cut, makes gmid contact that application, which is told the resource asked for, the client and the parameters of the file. Whatever the application then answers, in whatever records and at whatever pace: if it begins with a header with code 20 gg writes exactly the body and exits with 0; if with another code, gg writes nothing to its output, exits with that code and says the text; if there is no header gg exits with 42. If the application cannot be reached gg exits with 42 and writes nothing.",
  "all configuration files, URLs, answers of the application, record boundaries, segmentations of requests and replies, schedules",
  "three programs together: every answer in every division into records and segments under every schedule",
  ["gg.c: get, doreq, dorep", "server.c: client_read, apply_fastcgi, start_reply, client_write", "fcgi.c: fcgi_req, fcgi_read, parse_reply", "config.c", "parse.y"])
p("Patterns with an asterisk cover exactly what they look like",
  "With an fnmatch(3) that does what POSIX says about plain text and asterisks: a location whose pattern is plain text applies to exactly that path, one with an asterisk to exactly the paths that begin with what is before it and end with what is after it (any text, also with slashes, in between). gmid running with a configuration file whose server names and aliases are plain or begin with `*.' binds a connection for a name to the last server of the file that has this very name, or `*.' followed by what follows a dot of it; when no server has, the client is told so with 59, whatever it sends.",
  "all patterns of plain text with an asterisk, paths, configuration files, server names, later histories of the connection",
  "every pattern against every path and name",
  ["server.c: matches, match_host, handle_handshake", "config.c", "parse.y"])
p("A reload does not stop the server, whatever is in the files",
  "After SIGHUP gmid goes on: with the configuration it has when the new file does not parse, or names files that cannot be used, and otherwise with the new one in every process, with the certificates as they were when read. A file nobody writes to meanwhile is read completely; one that is being written to never gives anything but the beginning of what it has now, in the length it had before.",
  "all configurations, contents of every file as each of the processes finds it (also changed in between), directories, TLS libraries, numbers and states of server processes",
  "every combination of damaged files and of the moments at which several processes read them",
  ["gmid.c: main_reload, main_configure, main_sig_handler", "config.c: config_send, load_file, config_recv, config_crypto_recv_kp", "server.c: server_dispatch_parent, server_configure_done, setup_tls, load_vhosts", "crypto.c: crypto_dispatch_parent"])
p("The number of connected clients is right",
  "The number gmid keeps of its connected clients, and logs at SIGUSR2 in one line at the level of information, is at every moment the number of the connections that were accepted and whose closing has not finished, however the closing goes; it is never negative, and it is 0 again when all the clients have gone.",
  "all histories of any number of connections, all outcomes of tls_close and of the requests, all states of the log",
  "every interleaving of connections being accepted, closed at once and closed after being called again",
  ["server.c: server_accept, client_close, client_close_ev, handle_siginfo"])
p("A part of a reply is not taken for the whole",
  "What the TLS library reports is what happened on the connection: every byte that arrived, an end only when the peer has ended it, and a failure with a message otherwise; when a connection was cut off, closing it says so, however it was used before. gg exits with success only if the server has ended the reply, and then it has written all of the body; a client of a relay can tell a reply the relay got a part of from one it got completely.",
  "all results of OpenSSL's calls in any order, all replies and all parts of them, all histories of reads, writes and closings, all relays",
  "a connection can be cut after every byte and reported in several ways by OpenSSL",
  ["compat/libtls/tls.c: tls_ssl_error, tls_handshake, tls_read, tls_write, tls_close", "gg.c: dorep, get", "proxy.c: proxy_tls_readcb, proxy_error"])
p("What an application is told of the client's certificate",
  "An application knows its users by the certificate the client shows: TLS_CLIENT_HASH is SHA256: and the 64 lower-case hexadecimal digits of the certificate's digest, so that two clients have the same value if and only if the digests are the same; REMOTE_USER and TLS_CLIENT_ISSUER are its names; TLS_CLIENT_NOT_BEFORE and TLS_CLIENT_NOT_AFTER are the times of the certificate, in UTC and in the form YYYY-MM-DDThh:mm:ssZ; a client with any certificate that OpenSSL accepts can connect; a client whose certificate has a date that cannot be read is refused, so that no application is told a wrong one; of a client without one the application is told that there is none, and nothing of these.",
  "all digests, all names, all dates from year 0 to 9999 and all pairs of them, all requests and applications",
  "there are 3*10^11 seconds and 2^256 digests",
  ["fcgi.c: fcgi_req", "compat/libtls/tls.c: tls_cert_hash, tls_handshake", "compat/libtls/tls_conninfo.c: tls_hex_string, tls_get_peer_cert_times, tls_get_peer_cert_info, tls_conninfo_populate"])
p("Lists in memory and the freeing of a configuration",
  "The lists of hosts, locations, aliases, relays, addresses, parameters, macros and files are what the configuration says, whatever was put in and taken out before: an element put at an end of a list or taken out anywhere leaves the others and their order as they were, a walk over a list sees each element once and in order and comes to an end, also when it frees the elements on its way. After a reload everything of the old configuration is freed, once, nothing is used after it has been freed, and nothing else in memory changes; at the end of the configuration file exactly the macros of the file are gone; the end of an included file leads back to the file that includes it.",
  "all lists and elements at all addresses in memory, and all configurations: any number of hosts, locations, parameters, aliases, relays and addresses",
  "a use after free shows or does not show depending on the allocator, and a list has as many shapes as histories",
  ["compat/queue.h: TAILQ_INIT, TAILQ_INSERT_HEAD, TAILQ_INSERT_TAIL, TAILQ_REMOVE, TAILQ_FIRST, TAILQ_NEXT, TAILQ_PREV, TAILQ_LAST, TAILQ_EMPTY, TAILQ_FOREACH, TAILQ_FOREACH_SAFE", "config.c: config_purge", "parse.y: parse_conf, popfile"])
p("The OCSP response goes with the certificate",
  "When a client that asks for the status of the certificate (OCSP stapling) connects to an address, what is stapled is what was in the file of the `ocsp` option of the server whose certificate is shown, never that of another server on the same address, and whatever names the client asks for in one ClientHello or, after a HelloRetryRequest, several. Nothing is stapled for a server without the option or whose file is empty. When there is a response but it cannot be handed over, the handshake fails rather than go on without it. The certificate is good for the name that is asked for if that of any server on the address is, and a client that asks for no name gets that of the first server on the address.",
  "all configurations with any number of servers on any number of addresses, all contents of the certificate and OCSP files, all sequences of names asked for, memory or not",
  "which key pair a connection ends up with depends on the order and number of the servers that share an address and on what the client asks for, in combinations without end",
  ["server.c: add_matching_kps, setup_tls", "compat/libtls/tls_config.c: tls_config_set_keypair_ocsp_mem, tls_config_add_keypair_ocsp_mem", "compat/libtls/tls_server.c: tls_servername_cb, tls_configure_server_sni, tls_server_conn", "compat/libtls/tls_ocsp.c: tls_ocsp_stapling_cb", "compat/libtls/tls_util.c: tls_set_mem"])
p("The file of a certificate or key is loaded whole or not at all",
  "When ge, gg or titan load the file of a certificate or of a key, a regular file that nobody changes is loaded as it is, also when it is empty; one that has become shorter since its size was asked for is not loaded at all, nor is one that cannot be opened or read or that there is no memory for. Whatever fails, every descriptor that was opened is closed and all memory that was allocated is freed, once each; what had been read of the file is erased before, and so is the key that was there before a new one is loaded, also when that fails. After a failure there is no pointer left to what was freed. (Of a pipe nothing is loaded, and this passes for an empty file.)",
  "all contents and sizes of files, all outcomes of open, fstat, malloc and read in all combinations, all states of the heap before",
  "every combination of failures of the system at each step, with every content of the memory",
  ["compat/libtls/tls_util.c: tls_load_file", "compat/libtls/tls_config.c: tls_config_load_file", "compat/libtls/tls_keypair.c: tls_keypair_set_key_file, tls_keypair_clear_key", "compat/freezero.c: freezero"])
p("The log says who connected through which proxy",
  "Whatever header of the PROXY protocol a connection begins with, when it is accepted the log of the debug level has a line, proxy-protocol v1: from HOST port PORT via HOST port PORT, with the addresses and ports that are in the header, which is never cut off; from the line the addresses and ports can be read back, so that two connections with the same line came from the same address and port through the same ones; nothing is logged that was not initialised; and of a header that is refused there is no such line.",
  "all headers, all addresses and ports, all outcomes of getnameinfo",
  "there are 2^256 pairs of addresses, and the outcome of getnameinfo is up to the system",
  ["proxy-proto.c: proxy_proto_v1_string, proxy_proto_v1_parse", "server.c: read_cb"])
with open('/verif/properties.jsonl','w') as f:
    for x in P: f.write(json.dumps(x, ensure_ascii=False)+"\n")
print(len(P))
