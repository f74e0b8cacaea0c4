NOTES = {
 'C01': ('proved', 'Every accepted path is relative, dot-free and NUL-free; parsing never leaves the string\'s memory.'),
 'C02': ('proved', 'The in-place normaliser, modelled on memory with both pointers, computes dot-segment removal.'),
 'C03': ('proved', ''),
 'C04': ('proved', 'Exactness, uniqueness of the decoding, rejection of malformed escapes and %00, NUL-freedom.'),
 'C05': ('proved', ''),
 'C06': ('proved', 'Including rejection of arbitrarily long ports (no wrap-around of the 32 bit accumulator).'),
 'C07': ('proved', 'iff with a declarative grammar; getaddrinfo on bracketed addresses is a parameter.'),
 'C09': ('proved', 'iff with RFC 3629 encoding of scalar values; automaton table indexes in bounds.'),
 'C08': ('proved', 'Memory-level model of the loop; len > 0 (with len = 0 the code writes out of bounds, but no caller does that).'),
 'C10': ('partial', 'Boundedness, termination and content proved in full. "Reports truncation" is false of the code when path and query are both empty (C10_truncation_unreported is a concrete witness); proved otherwise.'),
 'C11': ('partial', 'False of the code for escaped characters (witnesses: %3F changes the resource, %0D%0A injects a line). Proved for requests without escapes before the query, host names and up to 1024 bytes.'),
 'C45': ('proved', ''),
 'C15': ('proved', 'fnmatch(3) is a parameter, so the result holds for every pattern language.'),
 'C32': ('proved', ''),
 'C24': ('partial', 'False of the code for N >= 2: strip N equals strip 1 for every path (C24_strip_n_is_strip_one), and even for N = 1 the result keeps the slash. Proved for N = 0 and 1.'),
 'C26': ('proved', 'For every sorted permutation of the configured table (qsort) and the libc bsearch loop.'),
 'C27': ('proved', ''),
 'C16': ('proved', 'First matching host by configuration order; a name matching none is refused with 59 and nothing else ever happens. fnmatch(3) and punycode decoding are parameters.'),
 'C17': ('partial', 'Proved when X509_verify_cert answers 0 or 1. False of the code when it fails with a negative value: the request is then served (C17_verify_error_authorises).'),
 'C18': ('proved', ''),
 'C19': ('proved', 'For every fragmentation of the malformed request and anything that happens afterwards.'),
 'C20': ('proved', ''),
 'C21': ('proved', ''),
 'C22': ('proved', 'For connections answered by the native handlers; with FastCGI see C62_second_request.'),
 'C23': ('partial', 'Proved for listening ports up to 32767; above, the port is printed as a negative number (C23_high_port_wrong).'),
 'C25': ('proved', 'openat(2) is only ever called with such names; symbolic links are followed by the kernel and not modelled.'),
 'C51': ('proved', 'For every size, every sequence of partial writes, with requests or garbage arriving meanwhile; a read(2) of a regular file is short only at its end.'),
 'C52': ('proved', 'scandir_fd with its array, the listing, and its delivery under any partial writes; qsort(3) is any sort. The title line is not escaped (C52_title_unescaped).'),
 'C53': ('partial', 'The redirect target is the decoded path, not escaped again: proved to lead to the same directory when the path needs no escaping; C53_redirect_elsewhere is the witness otherwise.'),
 'C59': ('partial', 'False of the code: C59_header_injection. Proved for clients that send no escaped line break.'),
 'C60': ('partial', 'False of the code: the port text of the request is compared, and it is empty when omitted (C60_for_host_default_port). The matching rule as implemented is C32.'),
 'C61': ('proved', 'Hypothesis: block return formats accepted by check_block_fmt; C61_needs_checked_formats shows it is needed.'),
 'C62': ('partial', 'Proved when no FastCGI application is involved. False otherwise: C62_second_request.'),
 'C12': ('partial', 'False of the code: a 13 byte name divides by zero (C12_division_by_zero), a 252 byte name writes out of bounds (C12_out_of_bounds), a 254 byte name is left unterminated (C12_unterminated). Proved: memory safety and termination when four times the Punycode fits the buffer; defined arithmetic for extended strings of up to six digits.'),
 'C13': ('proved', ''),
 'C14': ('partial', 'For every name whose labels stand for text under RFC 3492 (unbounded integers) and whose decoding leaves 60 bytes of the buffer free. Labels the RFC rejects are not always rejected (C14_accepts_more).'),
 'C46': ('proved', 'strtoll(3) is modelled as ISO C specifies it.'),
 'C47': ('proved', 'All needles, of any length: the 2, 3 and 4 byte windows and the two-way search (critical factorization) for the rest; no read out of bounds, termination.'),
 'C48': ('proved', 'Sign, and the sequence of memory accesses depends on the length only.'),
 'C49': ('partial', 'False of the code: C49_log_forged. Proved for names and decoded requests without control characters, any certificate.'),
 'C50': ('proved', 'The byte 0xA2 is encoded with a bare double quote (C50_quote_unescaped), so quotes are claimed for printable input only.'),
 'C63': ('partial', 'False of the code, which reads at a fixed offset of the subject: C63_wrong_name. Proved when the common name comes first.'),
 'C28': ('proved', 'For values that fit a record (the whole record under 65536 bytes); C28_long_value shows that a longer one breaks the framing.'),
 'C29': ('partial', 'Any stream, any fragmentation, any interleaving with client writes; false of the code for the status codes 21 to 29 (C29_code_2x), proved for all others.'),
 'C30': ('partial', 'The partition is proved when the configured SCRIPT_NAME is a prefix of the path; otherwise the code sends both unrelated (C30_unrelated_script).'),
 'C31': ('partial', 'Any fragmentation and interleaving; false of the code for the codes 21 to 29 (C31_code_2x) and for a NUL in the header (C31_nul), proved for all other replies.'),
 'C33': ('partial', 'Every well-formed header is accepted, with exactly its addresses, ports and length, and C33_accepts_partial is an exact characterisation of what is accepted. That is more liberal than the protocol (C33_lenient), and for UNKNOWN the length is not assigned (C33_unknown). getaddrinfo is a parameter.'),
 'C34': ('partial', 'Safety and delivery for every segmentation and read size, for headers of up to 107 bytes. False of the code for PROXY UNKNOWN (C34_unknown_undefined).'),
 'C35': ('partial', 'Proved for connections that came without a header. False of the code otherwise: a stale header is sent (C35_stale), a size wraps around (C35_wraparound), or the family is wrong (C35_family_mismatch).'),
 'C36': ('proved', 'Any interleaving of composing, partial sends and partial receives, any message up to the size limit.'),
 'C37': ('partial', 'Proved when the kernel never returns data from before a descriptor together with it and transfers at least a header at a time. False with the rule of unix(7) on Linux (C37_linux_wrong_message) and for shorter transfers (C37_short_read_loses).'),
 'C38': ('proved', 'Reload: from any previous state a server process ends with exactly the parsed configuration (hosts, aliases, locations with their params, relays, fastcgi, mime, protocols), in the same order, and acknowledges once; the crypto process with the key list. Hypotheses: every file opens, every CA loads, mime strings fit. Listening sockets arrive in reverse order. Transport of messages: C36, C37.'),
 'C39': ('partial', 'With the crypto process the keys of server blocks reach no server process (neither in a message nor in the resulting configuration). The full statement is false: C39_relay_keys_sent shows that the private keys of relay client certificates (proxy { cert; key }) are sent to the server processes.'),
 'C40': ('partial', 'Proved: a SIGHUP while the main process counts a reload in progress has no effect; a failing file changes nothing in the children; if every file parses, completion is counted exactly when all children acknowledged. After a parse failure the rest is false: conf->prefork is lost, so a later reload is accepted while another is in progress (C40_overlap), or no reload is ever accepted again (C40_stuck).'),
 'C41': ('partial', 'Values from any sequence of definitions on the command line and in the file, and what a reload keeps. The rest is false: -D splits at the last "=", so a value containing one defines another name (C41_cmdline_equals).'),
 'C42': ('partial', 'Indexes are shared, distinct and stable for every sequence of directives that gives no error; undefined behaviour is excluded when no path is used both with and without a port. The rest is false: strcmp with a null pointer (C42_undefined).'),
 'C43': ('partial', 'For numbers that fit in an int, from their text, and for every format. The rest is false: larger numbers wrap around and may be accepted (C43_wraps), prefork 16 is refused although documented (C43_prefork_16), a format ending in a single % is read past its end (C43_trailing_percent).'),
 'C44': ('proved', 'lookup with bsearch(3) over the actual table of 48 keywords, for every word.'),
 'C56': ('proved', 'Every sequence of listen directives over any number of servers, with any results of getaddrinfo(3); families other than AF_INET and AF_INET6 end the program.'),
 'C57': ('proved', 'The push-back buffer never overflows, over every sequence of reads and push-backs, and what is pushed back is read back last-in first-out, after which the input goes on as before.'),
 'C64': ('proved', 'Either quote, any position in any file, up to the limit of 8094 bytes. A string ending in a backslash cannot be written (shown by example).'),
 'C65': ('proved', 'For every contents of the files and all the macros they set (C65_parsing); only a macro set by -D must be without the bytes 1 and 2, which the lexer keeps for itself: with byte 2 in it the lexer may never return (C65_macro_loop).'),
 'C66': ('proved', 'Any blanks before it and any text without backslashes; a comment whose line ends in a backslash goes on with the next line (shown by example).'),
 'C67': ('proved', 'The @ form is stated on all the tokens that follow. Names of up to 8093 bytes.'),
 'C68': ('partial', 'For every sequence of tokens, includes, macros and errors, when no file or macro has a NUL byte. With one in an included file it is false: the parsing ends there and only the errors of that file are counted (C68_nul_hides_errors).'),
 'C69': ('partial', 'Exact for every file on which the parser comes to an end (C69_accepted_partial), which it does under the conditions of C69_defined_partial. The others are undefined behaviour or fatal: C42_undefined, C43_trailing_percent, media types of 128 bytes and more. yacc itself is not modelled: a file is the sequence of its directives.'),
 'C70': ('partial', 'Proved when no server has options after its locations. Otherwise false: such an option is applied to the last location (C70_option_misplaced: a whole server is left without the client certificate it is to require).'),
 'C71': ('proved', 'Servers are kept in the reverse of their order, and the first match is used.'),
 'C72': ('proved', 'Every accepted file.'),
 'C73': ('partial', 'Proved for everything but the chroot directory, and with it when the file names one or names no user. Otherwise false: the home directory of the user is forgotten (C73_chroot_lost), so that the access log is opened elsewhere.'),
 'C74': ('partial', 'Proved when the new file gives the log style, or the one in use is the default. Otherwise false: C74_log_style_kept.'),
 'C75': ('partial', 'Proved for all but local0, which is not recognised (C75_local0).'),
 'C76': ('partial', 'What applies is characterised exactly: log off anywhere wins. The property is false: C76_log_on_ignored.'),
 'C77': ('partial', 'The options set by the first matching location are in effect, and those of the server when none matches. The rest is false: for the options it does not set the later locations are not ignored (C77_later_not_ignored).'),
 'C54': ('proved', 'Any number of server processes, any interleaving. What OpenSSL does with a key is a parameter; the structures of the messages are records, their transport is C36.'),
 'C78': ('partial', 'Proved when the keys named are there and RSA operations succeed; a failing ECDSA signature is reported. The rest is false: a failing RSA operation ends the server process that asked for it (C78_rsa_failure_fatal).'),
 'C79': ('partial', 'Proved as long as each request finds its key. The rest is false: between RECONF_START and the key no request does, even when the certificate is unchanged (C79_request_during_reload).'),
 'C80': ('partial', 'Proved for terminated hashes and enough room. The rest is false: C80_overflow.'),
 'C55': ('partial', 'For static files, errors and CGI output, and for the upstream connection when its close notify needs no waiting: released once, not used after, and the connection ends. The rest is false: a directory listing closes a descriptor twice, which can be the socket of another client (C55_listing_closes_other_socket), the upstream TLS context is used after it is freed when the close notify has to wait (C55_upstream_close_use_after_free), and a second request during a FastCGI one leaks descriptors (C55_second_request_leaks).'),
 'C58': ('partial', 'Every reply and every fragmentation. False in two corners: without any reply the exit status is 255 (C58_no_reply), and the status 00 counts as success (C58_status_00).'),
 'C81': ('partial', 'Proved for IRIs without a fragment; in a fragment parse_iri accepts any bytes, so the request can be split (C81_fragment_splits_request).'),
 'C82': ('partial', 'Proved for files of at most one stdio block. The rest is false: the second block is never sent and titan waits forever (C82_only_first_block, C82_big_file_hangs).'),
 'C83': ('proved', 'Every reply, every order of reads and writes; cstr stands for the reply being handled as a C string.'),
 'C84': ('partial', 'The line sent is characterised exactly, and names the resource when nothing needs an escape. The rest is false: escapes are undone (C84_escaped_break_splits, C84_escaped_space_refused), the port is dropped (C84_port_dropped).'),
 'C85': ('proved', 'Model of proc_init, proc_exec, proc_connect, proc_open and proc_accept; failing system calls are fatal and not modelled.'),
 'C86': ('proved', 'The messages of one socket come in order (C36).'),
 'C87': ('proved', 'A process that is not stopped and not stuck in one callback is assumed to go on. In the foreground the main process is the last to end; as a daemon it is not the parent of the others and does not wait for them (C87_daemon_main_first). In the foreground SIGCHLD comes also when a child is stopped, so SIGSTOP for one of them ends gmid.'),
 'C88': ('proved', 'A write to the log that fails or is short is not modelled. What the server sends for a request is C49.'),
 'C89': ('partial', 'Proved when no reload failed before and the path fits. The rest is false: after a failed reload the main process has lost the path, so that SIGUSR1 ends the access log (C89_failed_reload).'),
 'C90': ('partial', 'Proved for messages that are non-empty requests, whatever is in them. The rest is false: the numbers in an IMSG_CTL_PROCFD are not checked (C90_memory; the same goes for the crypto process), and an empty request ends the logger (C90_end).'),
 'C91': ('proved', 'fcntl(2) locks as in POSIX; the file is not removed or replaced by others. Not every descendant of a gmid that ended has ended as well: C87_daemon_main_first.'),
 'C92': ('proved', 'For the grammar as it is written, without the rules with the token error. What yacc makes of it is not modelled.'),
 'C93': ('proved', 'Wherever there is a newline or semicolon, after every open brace and at the start. Between the options of a block none is needed either (the rules optnl), but in the block types and after a directive one is.'),
 'C94': ('proved', 'The user database answers the same to parent and children, and getpwnam(3) gives the entry of the name it is asked for. For correct command lines with the options of gmid(8); with the undocumented -U or -X, which only the parent is to use, the children get the value of the command line. A user whose home is empty, without a chroot, keeps the children from starting (C94_empty_home). execvp(3) and fork(2) do not fail. How the processes get connected is C85.'),
 'C95': ('partial', 'For the build with landlock. Proved but for truncate(2); with a kernel before ABI 3 that is not restricted (C95_truncate). What landlock does not know about, like chmod(2), sockets or files that are already open, is not part of the model, and neither is the branch with pledge(2).'),
 'C96': ('partial', 'Proved for wrong options. False for arguments that are not options: usage() does not end the process, so that gmid runs as if they were not there (C96_stray_argument).'),
 'C97': ('proved', 'The names as OpenSSL decodes them; inet_pton is a parameter.'),
 'C98': ('proved', ''),
 'C99': ('partial', 'False of the code: after the handshake the server is looked up by name among all servers, wherever they listen, so one that listens on the loopback address only answers on the public address to whoever asks for it (C99_answers_elsewhere). Proved for an address all servers listen on.'),
 'C100': ('proved', 'For buffers of at least a byte; in one without memory adding nothing is reported as an error (C100_empty_add).'),
 'C101': ('proved', 'With the crypto process, as always in gmid; the code for running without it leaks a descriptor per key pair (C101_leak_without_crypto).'),
 'C102': ('proved', 'malloc, calloc and realloc are as the C standard has them, with any outcome.'),
 'C103': ('partial', 'Proved for relays, FastCGI over TCP, the clients, and FastCGI sockets with paths of up to 107 bytes. False for longer ones, which are accepted and then truncated (C103_long_path).'),
 'C104': ('proved', 'files without includes and macros (those are C67, C68); a semicolon right after a number is not a separator: C104_semicolon, C104_port_semicolon'),
 'C105': ('partial', 'C105_no_stall_partial holds for every history in which no FastCGI application goes away without ending its answer; C105_app_gone_stalls and C105_not_always show that the full claim is false of the code. C105_no_loss_partial excepts further requests that arrive while a FastCGI application answers the first (C62).'),
 'C106': ('proved', "All histories. What the request line says is C11; a PROXY line left over from the client's own header is C35 (the size that wraps around there is excluded here: the read position starts at 0)."),
 'C107': ('partial', 'Holds for every connection and command line when the name of the directory is shorter than 4096 bytes; false for longer ones (C107_another_directory).'),
 'C108': ('partial', 'Holds for absolute HOME directories; false for relative ones, for / and for top-level directories (witnesses). XDG_DATA_HOME goes through the same mkdirs (C108_mkdirs).'),
 'C109': ('partial', "The pair, other files and failures are proved; the key's privacy, the user's own files on failure and crashes while the certificate is written are false of the code (witnesses)."),
 'C110': ('proved', 'All histories and callbacks. Descriptors are C37. proc_flush_imsg is C101.'),
 'C111': ('partial', 'Proved for the lists that do not keep everything out before another exclusion; refuted in general (C111_excluded_again). Refusal (C111_refused) is exact for all strings.'),
 'C112': ('partial', 'Missing: servers with options after a location (false, C70); strip in blocks (C24); ports above 32767 (C23).'),
 'C113': ('partial', 'Missing: nothing checks that the keys match their certificates; false without that hypothesis (C113_wrong_key).'),
 'C114': ('partial', 'Missing: the files that gmid -n does not look at, and kinds of keys; false without those hypotheses (C114_not_tested). Binding the sockets is assumed to succeed.'),
 'C115': ('partial', 'Missing: files with more than one CA, for which it is false (C115_others_ignored).'),
 'C116': ('partial', 'Missing: requests with escapes before the query or bracketed addresses (false, C11), replies with a NUL or a code 21-29 in the header (false, C31), servers with options after a location (false, C70).'),
 'C117': ('partial', 'Missing: servers with options after a location (false, C70), certificate texts over 60000 bytes (C28_long_value), replies with codes 21-29 (false, C29) or a NUL in the header.'),
 'C118': ('partial', "Proved for reloads that find every open connection with its reply header queued (C118_no_stale_partial, C118_carried_partial). Missing because false: connections that are shaking hands, waiting for a request, or waiting for an application's or upstream server's header read freed memory after any reload."),
 'C119': ('partial', 'Proved: the request, for every history (C119_request_bounded), and replies made by the server itself (C119_reply_bounded_partial). Missing because false: input after the request and relayed replies grow without bound (C119_input_grows, C119_not_always, C119_relay_grows).'),
 'C120': ('proved', 'The main process keeps its privileges by design (it reopens files on reload); exec of set-user-id files is not modelled.'),
 'C121': ('partial', 'C121_table covers every history; that every open connection is in the table is proved of a server that accepted fewer than 2^32 connections, and C121_wrap proves it false after that.'),
 'C122': ('partial', 'C122_defined_partial and C122_gemexp_partial say exactly when it is undefined; C122_connection_partial covers every history of a connection with a name; C122_undefined and C122_gemexp_undefined prove the full claim false.'),
 'C123': ('partial', 'One line per reply is proved for requests without control characters and false otherwise (C123_gemexp_forged); what the line shows is proved for every request that fits the buffer.'),
 'C124': ('proved', ''),
 'C125': ('proved', ''),
 'C126': ('partial', 'Command line, target, versions, what is sent and the exit status are proved in full. The name check is as the manual has it without -P; with -P the code skips it (C126_proxy_unverified), which the manual does not say.'),
 'C127': ('partial', 'Command line, standard input, request line and target are proved in full. False of the code: the name of the server is never verified (C127_name_not_verified), a client certificate gets the program killed on OpenBSD (C127_certificate_killed), and the announced size of a file that is not regular can be wrong (C127_fifo).'),
 'C128': ('partial', 'The check, the status and what the dump says when read back are proved in full, for strings without quotes, backslashes and newlines. That it says the same as the file is false of the code: C128_reversed, C128_not_the_same, C128_quotes.'),
 'C129': ('partial', 'Proved in full for C libraries whose putwc does not care for the orientation of the stream; with glibc the property is false: C129_nothing_shown.'),
 'C130': ('partial', 'Everything but the last sentence is proved, log_warn for texts of errors without a percent sign; C130_percent and C130_forged show that the two do not hold of the code.'),
 'C131': ('proved', 'That the verification does not fail includes its failing with an error (C17_verify_error_authorises). The conditions on strip are needed: C131_strip_bypass.'),
 'C60': ('partial', 'C60_for_host_partial: the rule applies exactly to the requests with the port written out. The rest of the property is false of the code: the port text of the request is compared, and it is empty when omitted (C60_for_host_default_port).'),
 'C132': ('partial', 'Proved when more than 107 bytes have come, and when the header came apart from the rest; otherwise false of the code: C132_stall.'),
 'C133': ('proved', 'With the conditions of C112: options of a server before its locations, openat and fstat as the kernel answers them; types and languages without CR; block return without strip, port below 32768 and a text of at most 1024 bytes.'),
 'C134': ('partial', "Partial because bytes are repeated if a pid is used again (C134_repeats). ChaCha and getentropy are symbolic; the system's entropy is assumed to be always new."),
 'C135': ('proved', 'With the conditions of C116 and C112; without the PROXY line between the two; URL of at most 1023 bytes, as serialize_iri adds a slash to a URL with an empty path.'),
 'C136': ('proved', "With the conditions of C133; the path redirected to has no CR (C59); path and index name together fit PATH_MAX; the kernel's answers to openat, fstat and readdir are parameters."),
 'C137': ('partial', "As C117: the server's options come before its locations (C70), codes 21 to 29 (C29_code_2x) are left out, and the text and language have no CR (C59); C137_unreachable has no such restriction but the first."),
 'C138': ('proved', "fnmatch(3) itself is libc's: `?', brackets and backslashes depend on the locale and are left out; a libc that fails with an error on text that is not valid in the locale does not satisfy the hypothesis. Options before locations as in C70."),
 'C139': ('partial', "False of the code: C139_ends; what holds, exactly, is C139_goes_on_partial, with C139_parse_failure. Sockets can be created and bound; parse_conf's media types fit (C69); that one process ending ends all is gmid.c:528-534."),
 'C140': ('proved', 'For every history of the process model of C55, also those in which it goes wrong. The int does not overflow: there are fewer descriptors than that.'),
 'C141': ('partial', 'False of the code: C141_gg_cut and C141_relay_cut (for every reply and every cut). Proved: what libtls says of reads and closing (C141_read, C141_close_tells, C141_close_once), of the handshake (C141_handshake, with its exception), and gg when OpenSSL has an error for a cut.'),
 'C142': ('partial', 'False of the code for one second (C142_refused; C142_accepted is an equivalence). The rest is proved: C142_told, C142_hash, C142_time, C142_no_certificate. The texts of the times are for the years from 1000 on.'),
 'C143': ('proved', "An element's strings, keys and descriptors are not in this memory. TAILQ_REPLACE, TAILQ_CONCAT, TAILQ_INSERT_AFTER, TAILQ_INSERT_BEFORE and the reverse walks are not in use."),
 'C144': ('proved', 'A session that is resumed shows no certificate and staples nothing, which is in OpenSSL. The hypothesis that certificates have proper names (C144_the_right_certificate only) is that of C97/C98.'),
 'C145': ('proved', 'That the compiler keeps the memset of freezero is assumed. C145_not_regular is the case of a pipe. The old buffer that tls_config_load_file frees by itself (a certificate) is not erased; the key is, by tls_keypair_clear_key (C145_key_erased).'),
 'C146': ('partial', 'False of the code when there is no name for the address of the proxy: C146_no_name_undefined. The rest is proved: C146_logged_partial, C146_read, C146_told_apart, C146_rejected. The hypothesis NumericNames is what getnameinfo with NI_NUMERICHOST gives.'),
}
