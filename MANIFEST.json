{
 "claims": [
  {
   "property": "C01",
   "status": "proved",
   "theorems": [
    "Gmid.Props.C01_path_confined",
    "Gmid.Props.C01_no_undefined_behaviour",
    "Gmid.Props.C01_walk_stays_below"
   ],
   "note": "Every accepted path is relative, dot-free and NUL-free; parsing never leaves the string's memory."
  },
  {
   "property": "C02",
   "status": "proved",
   "theorems": [
    "Gmid.Props.C02_path_is_normalised",
    "Gmid.Props.C02_path_clean",
    "Gmid.Props.C02_normalize_components"
   ],
   "note": "The in-place normaliser, modelled on memory with both pointers, computes dot-segment removal."
  },
  {
   "property": "C03",
   "status": "proved",
   "theorems": [
    "Gmid.Props.C03_idempotent"
   ],
   "note": ""
  },
  {
   "property": "C04",
   "status": "proved",
   "theorems": [
    "Gmid.Props.C04_decoding_exact",
    "Gmid.Props.C04_decoding_unique",
    "Gmid.Props.C04_malformed_escape_rejected",
    "Gmid.Props.C04_no_nul"
   ],
   "note": "Exactness, uniqueness of the decoding, rejection of malformed escapes and %00, NUL-freedom."
  },
  {
   "property": "C05",
   "status": "proved",
   "theorems": [
    "Gmid.Props.C05_case_normalised"
   ],
   "note": ""
  },
  {
   "property": "C06",
   "status": "proved",
   "theorems": [
    "Gmid.Props.C06_port_exact",
    "Gmid.Props.C06_port_overflow_rejected"
   ],
   "note": "Including rejection of arbitrarily long ports (no wrap-around of the 32 bit accumulator)."
  },
  {
   "property": "C07",
   "status": "proved",
   "theorems": [
    "Gmid.Props.C07_accepts_grammar",
    "Gmid.Props.C07_rejects_the_rest",
    "Gmid.Props.C07_unambiguous"
   ],
   "note": "iff with a declarative grammar; getaddrinfo on bracketed addresses is a parameter."
  },
  {
   "property": "C08",
   "status": "proved",
   "theorems": [
    "Gmid.Props.C08_encode_path",
    "Gmid.Props.C08_invertible"
   ],
   "note": "Memory-level model of the loop; len > 0 (with len = 0 the code writes out of bounds, but no caller does that)."
  },
  {
   "property": "C09",
   "status": "proved",
   "theorems": [
    "Gmid.Props.C09_utf8_exact",
    "Gmid.Props.C09_utf8_reject",
    "Gmid.Props.C09_table_in_bounds"
   ],
   "note": "iff with RFC 3629 encoding of scalar values; automaton table indexes in bounds."
  },
  {
   "property": "C10",
   "status": "partial",
   "theorems": [
    "Gmid.Props.C10_serialize_bounded",
    "Gmid.Props.C10_reports_truncation_partial",
    "Gmid.Props.C10_truncation_unreported"
   ],
   "note": "Boundedness, termination and content proved in full. \"Reports truncation\" is false of the code when path and query are both empty (C10_truncation_unreported is a concrete witness); proved otherwise."
  },
  {
   "property": "C11",
   "status": "partial",
   "theorems": [
    "Gmid.Props.C11_relayed_request_partial",
    "Gmid.Props.C11_relayed_resource_differs",
    "Gmid.Props.C11_relayed_line_injection"
   ],
   "note": "False of the code for escaped characters (witnesses: %3F changes the resource, %0D%0A injects a line). Proved for requests without escapes before the query, host names and up to 1024 bytes."
  },
  {
   "property": "C12",
   "status": "partial",
   "theorems": [
    "Gmid.Props.C12_division_by_zero",
    "Gmid.Props.C12_out_of_bounds",
    "Gmid.Props.C12_unterminated",
    "Gmid.Props.C12_memory_safe_partial",
    "Gmid.Props.C12_short_names_partial",
    "Gmid.Props.C12_no_undefined_behaviour_partial"
   ],
   "note": "False of the code: a 13 byte name divides by zero (C12_division_by_zero), a 252 byte name writes out of bounds (C12_out_of_bounds), a 254 byte name is left unterminated (C12_unterminated). Proved: memory safety and termination when four times the Punycode fits the buffer; defined arithmetic for extended strings of up to six digits."
  },
  {
   "property": "C13",
   "status": "proved",
   "theorems": [
    "Gmid.Props.C13_plain_names",
    "Gmid.Props.C13_plain_string",
    "Gmid.Props.C13_label_too_long"
   ],
   "note": ""
  },
  {
   "property": "C14",
   "status": "partial",
   "theorems": [
    "Gmid.Props.C14_rfc3492_partial",
    "Gmid.Props.C14_accepts_more"
   ],
   "note": "For every name whose labels stand for text under RFC 3492 (unbounded integers) and whose decoding leaves 60 bytes of the buffer free. Labels the RFC rejects are not always rejected (C14_accepts_more)."
  },
  {
   "property": "C15",
   "status": "proved",
   "theorems": [
    "Gmid.Props.C15_exhaustive",
    "Gmid.Props.C15_unique",
    "Gmid.Props.C15_lang",
    "Gmid.Props.C15_default_type",
    "Gmid.Props.C15_index",
    "Gmid.Props.C15_auto_index",
    "Gmid.Props.C15_block_return",
    "Gmid.Props.C15_root",
    "Gmid.Props.C15_strip",
    "Gmid.Props.C15_client_ca",
    "Gmid.Props.C15_log",
    "Gmid.Props.C15_fastcgi",
    "Gmid.Props.C15_no_host"
   ],
   "note": "fnmatch(3) is a parameter, so the result holds for every pattern language."
  },
  {
   "property": "C16",
   "status": "proved",
   "theorems": [
    "Gmid.Props.C16_bound_to_first_match",
    "Gmid.Props.C16_refused",
    "Gmid.Props.C16_first_matching_host"
   ],
   "note": "First matching host by configuration order; a name matching none is refused with 59 and nothing else ever happens. fnmatch(3) and punycode decoding are parameters."
  },
  {
   "property": "C17",
   "status": "partial",
   "theorems": [
    "Gmid.Props.C17_relay_partial",
    "Gmid.Props.C17_location_partial",
    "Gmid.Props.C17_verify_error_authorises"
   ],
   "note": "Proved when X509_verify_cert answers 0 or 1. False of the code when it fails with a negative value: the request is then served (C17_verify_error_authorises)."
  },
  {
   "property": "C18",
   "status": "proved",
   "theorems": [
    "Gmid.Props.C18_refused"
   ],
   "note": ""
  },
  {
   "property": "C19",
   "status": "proved",
   "theorems": [
    "Gmid.Props.C19_malformed_rejected"
   ],
   "note": "For every fragmentation of the malformed request and anything that happens afterwards."
  },
  {
   "property": "C20",
   "status": "proved",
   "theorems": [
    "Gmid.Props.C20_exhaustive",
    "Gmid.Props.C20_relay_first",
    "Gmid.Props.C20_precedence"
   ],
   "note": ""
  },
  {
   "property": "C21",
   "status": "proved",
   "theorems": [
    "Gmid.Props.C21_reply_header",
    "Gmid.Props.C21_bounded",
    "Gmid.Props.C21_code_text"
   ],
   "note": ""
  },
  {
   "property": "C22",
   "status": "proved",
   "theorems": [
    "Gmid.Props.C22_one_header"
   ],
   "note": "For connections answered by the native handlers; with FastCGI see C62_second_request."
  },
  {
   "property": "C23",
   "status": "partial",
   "theorems": [
    "Gmid.Props.C23_strlcat_model",
    "Gmid.Props.C23_expansion_partial",
    "Gmid.Props.C23_high_port_wrong",
    "Gmid.Props.C23_accepted_formats"
   ],
   "note": "Proved for listening ports up to 32767; above, the port is printed as a negative number (C23_high_port_wrong)."
  },
  {
   "property": "C24",
   "status": "partial",
   "theorems": [
    "Gmid.Props.C24_strip_partial",
    "Gmid.Props.C24_strip_n_is_strip_one",
    "Gmid.Props.C24_strip_two_wrong"
   ],
   "note": "False of the code for N >= 2: strip N equals strip 1 for every path (C24_strip_n_is_strip_one), and even for N = 1 the result keeps the slash. Proved for N = 0 and 1."
  },
  {
   "property": "C25",
   "status": "proved",
   "theorems": [
    "Gmid.Props.C25_opened_names"
   ],
   "note": "openat(2) is only ever called with such names; symbolic links are followed by the kernel and not modelled."
  },
  {
   "property": "C26",
   "status": "proved",
   "theorems": [
    "Gmid.Props.C26_mime_type"
   ],
   "note": "For every sorted permutation of the configured table (qsort) and the libc bsearch loop."
  },
  {
   "property": "C27",
   "status": "proved",
   "theorems": [
    "Gmid.Props.C27_add",
    "Gmid.Props.C27_adds",
    "Gmid.Props.C27_defaults"
   ],
   "note": ""
  },
  {
   "property": "C28",
   "status": "proved",
   "theorems": [
    "Gmid.Props.C28_params_received",
    "Gmid.Props.C28_padded",
    "Gmid.Props.C28_long_value"
   ],
   "note": "For values that fit a record (the whole record under 65536 bytes); C28_long_value shows that a longer one breaks the framing."
  },
  {
   "property": "C29",
   "status": "partial",
   "theorems": [
    "Gmid.Props.C29_reassembly_partial",
    "Gmid.Props.C29_streaming",
    "Gmid.Props.C29_fragmentation_partial",
    "Gmid.Props.C29_code_2x"
   ],
   "note": "Any stream, any fragmentation, any interleaving with client writes; false of the code for the status codes 21 to 29 (C29_code_2x), proved for all others."
  },
  {
   "property": "C30",
   "status": "partial",
   "theorems": [
    "Gmid.Props.C30_partition_partial",
    "Gmid.Props.C30_no_script",
    "Gmid.Props.C30_query",
    "Gmid.Props.C30_unrelated_script"
   ],
   "note": "The partition is proved when the configured SCRIPT_NAME is a prefix of the path; otherwise the code sends both unrelated (C30_unrelated_script)."
  },
  {
   "property": "C31",
   "status": "partial",
   "theorems": [
    "Gmid.Props.C31_relayed_partial",
    "Gmid.Props.C31_invalid_partial",
    "Gmid.Props.C31_streaming",
    "Gmid.Props.C31_handshake",
    "Gmid.Props.C31_code_2x",
    "Gmid.Props.C31_nul"
   ],
   "note": "Any fragmentation and interleaving; false of the code for the codes 21 to 29 (C31_code_2x) and for a NUL in the header (C31_nul), proved for all other replies."
  },
  {
   "property": "C32",
   "status": "proved",
   "theorems": [
    "Gmid.Props.C32_first_matching_relay"
   ],
   "note": ""
  },
  {
   "property": "C33",
   "status": "partial",
   "theorems": [
    "Gmid.Props.C33_accepts_partial",
    "Gmid.Props.C33_wellformed",
    "Gmid.Props.C33_lenient",
    "Gmid.Props.C33_unknown"
   ],
   "note": "Every well-formed header is accepted, with exactly its addresses, ports and length, and C33_accepts_partial is an exact characterisation of what is accepted. That is more liberal than the protocol (C33_lenient), and for UNKNOWN the length is not assigned (C33_unknown). getaddrinfo is a parameter."
  },
  {
   "property": "C34",
   "status": "partial",
   "theorems": [
    "Gmid.Props.C34_only_what_follows_partial",
    "Gmid.Props.C34_all_delivered_partial",
    "Gmid.Props.C34_overlong",
    "Gmid.Props.C34_unknown_undefined"
   ],
   "note": "Safety and delivery for every segmentation and read size, for headers of up to 107 bytes. False of the code for PROXY UNKNOWN (C34_unknown_undefined)."
  },
  {
   "property": "C35",
   "status": "partial",
   "theorems": [
    "Gmid.Props.C35_roundtrip_partial",
    "Gmid.Props.C35_stale",
    "Gmid.Props.C35_nothing_before",
    "Gmid.Props.C35_wraparound",
    "Gmid.Props.C35_family_mismatch"
   ],
   "note": "Proved for connections that came without a header. False of the code otherwise: a stale header is sent (C35_stale), a size wraps around (C35_wraparound), or the family is wrong (C35_family_mismatch)."
  },
  {
   "property": "C36",
   "status": "proved",
   "theorems": [
    "Gmid.Props.C36_lossless"
   ],
   "note": "Any interleaving of composing, partial sends and partial receives, any message up to the size limit."
  },
  {
   "property": "C37",
   "status": "partial",
   "theorems": [
    "Gmid.Props.C37_descriptors_partial",
    "Gmid.Props.C37_linux_wrong_message",
    "Gmid.Props.C37_short_read_loses"
   ],
   "note": "Proved when the kernel never returns data from before a descriptor together with it and transfers at least a header at a time. False with the rule of unix(7) on Linux (C37_linux_wrong_message) and for shorter transfers (C37_short_read_loses)."
  },
  {
   "property": "C38",
   "status": "proved",
   "theorems": [
    "Gmid.Props.C38_server",
    "Gmid.Props.C38_crypto",
    "Gmid.Props.C38_crypto_pairs"
   ],
   "note": "Reload: from any previous state a server process ends with exactly the parsed configuration (hosts, aliases, locations with their params, relays, fastcgi, mime, protocols), in the same order, and acknowledges once; the crypto process with the key list. Hypotheses: every file opens, every CA loads, mime strings fit. Listening sockets arrive in reverse order. Transport of messages: C36, C37."
  },
  {
   "property": "C39",
   "status": "partial",
   "theorems": [
    "Gmid.Props.C39_server_keys_partial",
    "Gmid.Props.C39_no_key_held",
    "Gmid.Props.C39_relay_keys_sent"
   ],
   "note": "With the crypto process the keys of server blocks reach no server process (neither in a message nor in the resulting configuration). The full statement is false: C39_relay_keys_sent shows that the private keys of relay client certificates (proxy { cert; key }) are sent to the server processes."
  },
  {
   "property": "C40",
   "status": "partial",
   "theorems": [
    "Gmid.Props.C40_ignored",
    "Gmid.Props.C40_parse_failure",
    "Gmid.Props.C40_serialised_partial",
    "Gmid.Props.C40_one_at_a_time_partial",
    "Gmid.Props.C40_overlap",
    "Gmid.Props.C40_stuck"
   ],
   "note": "Proved: a SIGHUP while the main process counts a reload in progress has no effect; a failing file changes nothing in the children; if every file parses, completion is counted exactly when all children acknowledged. After a parse failure the rest is false: conf->prefork is lost, so a later reload is accepted while another is in progress (C40_overlap), or no reload is ever accepted again (C40_stuck)."
  },
  {
   "property": "C41",
   "status": "partial",
   "theorems": [
    "Gmid.Props.C41_value_partial",
    "Gmid.Props.C41_reload_partial",
    "Gmid.Props.C41_cmdline_partial",
    "Gmid.Props.C41_cmdline_equals"
   ],
   "note": "Values from any sequence of definitions on the command line and in the file, and what a reload keeps. The rest is false: -D splits at the last \"=\", so a value containing one defines another name (C41_cmdline_equals)."
  },
  {
   "property": "C42",
   "status": "partial",
   "theorems": [
    "Gmid.Props.C42_indexes_partial",
    "Gmid.Props.C42_defined_partial",
    "Gmid.Props.C42_undefined"
   ],
   "note": "Indexes are shared, distinct and stable for every sequence of directives that gives no error; undefined behaviour is excluded when no path is used both with and without a port. The rest is false: strcmp with a null pointer (C42_undefined)."
  },
  {
   "property": "C43",
   "status": "partial",
   "theorems": [
    "Gmid.Props.C43_numbers_partial",
    "Gmid.Props.C43_wraps",
    "Gmid.Props.C43_prefork_16",
    "Gmid.Props.C43_format_partial",
    "Gmid.Props.C43_trailing_percent"
   ],
   "note": "For numbers that fit in an int, from their text, and for every format. The rest is false: larger numbers wrap around and may be accepted (C43_wraps), prefork 16 is refused although documented (C43_prefork_16), a format ending in a single % is read past its end (C43_trailing_percent)."
  },
  {
   "property": "C44",
   "status": "proved",
   "theorems": [
    "Gmid.Props.C44_lookup",
    "Gmid.Props.C44_tokens"
   ],
   "note": "lookup with bsearch(3) over the actual table of 48 keywords, for every word."
  },
  {
   "property": "C45",
   "status": "proved",
   "theorems": [
    "Gmid.Props.C45_strlcpy",
    "Gmid.Props.C45_strlcat"
   ],
   "note": ""
  },
  {
   "property": "C46",
   "status": "proved",
   "theorems": [
    "Gmid.Props.C46_strtonum",
    "Gmid.Props.C46_errors"
   ],
   "note": "strtoll(3) is modelled as ISO C specifies it."
  },
  {
   "property": "C47",
   "status": "proved",
   "theorems": [
    "Gmid.Props.C47_memmem"
   ],
   "note": "All needles, of any length: the 2, 3 and 4 byte windows and the two-way search (critical factorization) for the rest; no read out of bounds, termination."
  },
  {
   "property": "C48",
   "status": "proved",
   "theorems": [
    "Gmid.Props.C48_sign",
    "Gmid.Props.C48_constant_accesses"
   ],
   "note": "Sign, and the sequence of memory accesses depends on the length only."
  },
  {
   "property": "C49",
   "status": "partial",
   "theorems": [
    "Gmid.Props.C49_single_line_partial",
    "Gmid.Props.C49_log_forged"
   ],
   "note": "False of the code: C49_log_forged. Proved for names and decoded requests without control characters, any certificate."
  },
  {
   "property": "C50",
   "status": "proved",
   "theorems": [
    "Gmid.Props.C50_strnvis",
    "Gmid.Props.C50_quote_unescaped",
    "Gmid.Props.C50_strnvis_complete"
   ],
   "note": "The byte 0xA2 is encoded with a bare double quote (C50_quote_unescaped), so quotes are claimed for printable input only."
  },
  {
   "property": "C51",
   "status": "proved",
   "theorems": [
    "Gmid.Props.C51_file_delivered",
    "Gmid.Props.C51_file_opened"
   ],
   "note": "For every size, every sequence of partial writes, with requests or garbage arriving meanwhile; a read(2) of a regular file is short only at its end."
  },
  {
   "property": "C52",
   "status": "proved",
   "theorems": [
    "Gmid.Props.C52_scandir",
    "Gmid.Props.C52_scandir_succeeds",
    "Gmid.Props.C52_link",
    "Gmid.Props.C52_listing_delivered",
    "Gmid.Props.C52_listing_started",
    "Gmid.Props.C52_title_unescaped"
   ],
   "note": "scandir_fd with its array, the listing, and its delivery under any partial writes; qsort(3) is any sort. The title line is not escaped (C52_title_unescaped)."
  },
  {
   "property": "C53",
   "status": "partial",
   "theorems": [
    "Gmid.Props.C53_redirect",
    "Gmid.Props.C53_no_redirect",
    "Gmid.Props.C53_target_partial",
    "Gmid.Props.C53_redirect_elsewhere"
   ],
   "note": "The redirect target is the decoded path, not escaped again: proved to lead to the same directory when the path needs no escaping; C53_redirect_elsewhere is the witness otherwise."
  },
  {
   "property": "C54",
   "status": "proved",
   "theorems": [
    "Gmid.Props.C54_right_key"
   ],
   "note": "Any number of server processes, any interleaving. What OpenSSL does with a key is a parameter; the structures of the messages are records, their transport is C36."
  },
  {
   "property": "C55",
   "status": "partial",
   "theorems": [
    "Gmid.Props.C55_released_once_partial",
    "Gmid.Props.C55_closing_finishes_partial",
    "Gmid.Props.C55_listing_closes_other_socket",
    "Gmid.Props.C55_upstream_close_use_after_free",
    "Gmid.Props.C55_second_request_leaks"
   ],
   "note": "For static files, errors and CGI output, and for the upstream connection when its close notify needs no waiting: released once, not used after, and the connection ends. The rest is false: a directory listing closes a descriptor twice, which can be the socket of another client (C55_listing_closes_other_socket), the upstream TLS context is used after it is freed when the close notify has to wait (C55_upstream_close_use_after_free), and a second request during a FastCGI one leaks descriptors (C55_second_request_leaks)."
  },
  {
   "property": "C56",
   "status": "proved",
   "theorems": [
    "Gmid.Props.C56_listen"
   ],
   "note": "Every sequence of listen directives over any number of servers, with any results of getaddrinfo(3); families other than AF_INET and AF_INET6 end the program."
  },
  {
   "property": "C57",
   "status": "proved",
   "theorems": [
    "Gmid.Props.C57_room",
    "Gmid.Props.C57_pushback"
   ],
   "note": "The push-back buffer never overflows, over every sequence of reads and push-backs, and what is pushed back is read back last-in first-out, after which the input goes on as before."
  },
  {
   "property": "C58",
   "status": "partial",
   "theorems": [
    "Gmid.Props.C58_fragmentation",
    "Gmid.Props.C58_gg_reply",
    "Gmid.Props.C58_gg_broken",
    "Gmid.Props.C58_gg_malformed",
    "Gmid.Props.C58_no_reply",
    "Gmid.Props.C58_status_00"
   ],
   "note": "Every reply and every fragmentation. False in two corners: without any reply the exit status is 255 (C58_no_reply), and the status 00 counts as success (C58_status_00)."
  },
  {
   "property": "C59",
   "status": "partial",
   "theorems": [
    "Gmid.Props.C59_header_is_one_line_partial",
    "Gmid.Props.C59_header_injection"
   ],
   "note": "False of the code: C59_header_injection. Proved for clients that send no escaped line break."
  },
  {
   "property": "C60",
   "status": "partial",
   "theorems": [
    "Gmid.Props.C60_for_host_partial",
    "Gmid.Props.C60_for_host_default_port"
   ],
   "note": "C60_for_host_partial: the rule applies exactly to the requests with the port written out. The rest of the property is false of the code: the port text of the request is compared, and it is empty when omitted (C60_for_host_default_port)."
  },
  {
   "property": "C61",
   "status": "proved",
   "theorems": [
    "Gmid.Props.C61_request_handling_defined",
    "Gmid.Props.C61_needs_checked_formats"
   ],
   "note": "Hypothesis: block return formats accepted by check_block_fmt; C61_needs_checked_formats shows it is needed."
  },
  {
   "property": "C62",
   "status": "partial",
   "theorems": [
    "Gmid.Props.C62_second_request",
    "Gmid.Props.C62_single_request_partial"
   ],
   "note": "Proved when no FastCGI application is involved. False otherwise: C62_second_request."
  },
  {
   "property": "C63",
   "status": "partial",
   "theorems": [
    "Gmid.Props.C63_common_name_partial",
    "Gmid.Props.C63_wrong_name"
   ],
   "note": "False of the code, which reads at a fixed offset of the subject: C63_wrong_name. Proved when the common name comes first."
  },
  {
   "property": "C64",
   "status": "proved",
   "theorems": [
    "Gmid.Props.C64_between",
    "Gmid.Props.C64_quoted"
   ],
   "note": "Either quote, any position in any file, up to the limit of 8094 bytes. A string ending in a backslash cannot be written (shown by example)."
  },
  {
   "property": "C65",
   "status": "proved",
   "theorems": [
    "Gmid.Props.C65_total",
    "Gmid.Props.C65_parsing",
    "Gmid.Props.C65_macro_loop"
   ],
   "note": "For every contents of the files and all the macros they set (C65_parsing); only a macro set by -D must be without the bytes 1 and 2, which the lexer keeps for itself: with byte 2 in it the lexer may never return (C65_macro_loop)."
  },
  {
   "property": "C66",
   "status": "proved",
   "theorems": [
    "Gmid.Props.C66_comment",
    "Gmid.Props.C66_newline"
   ],
   "note": "Any blanks before it and any text without backslashes; a comment whose line ends in a backslash goes on with the next line (shown by example)."
  },
  {
   "property": "C67",
   "status": "proved",
   "theorems": [
    "Gmid.Props.C67_dollar",
    "Gmid.Props.C67_at",
    "Gmid.Props.C67_undefined"
   ],
   "note": "The @ form is stated on all the tokens that follow. Names of up to 8093 bytes."
  },
  {
   "property": "C68",
   "status": "partial",
   "theorems": [
    "Gmid.Props.C68_errors_refuse_partial",
    "Gmid.Props.C68_nul_hides_errors",
    "Gmid.Props.C68_unterminated"
   ],
   "note": "For every sequence of tokens, includes, macros and errors, when no file or macro has a NUL byte. With one in an included file it is false: the parsing ends there and only the errors of that file are counted (C68_nul_hides_errors)."
  },
  {
   "property": "C69",
   "status": "partial",
   "theorems": [
    "Gmid.Props.C69_accepted_partial",
    "Gmid.Props.C69_defined_partial"
   ],
   "note": "Exact for every file on which the parser comes to an end (C69_accepted_partial), which it does under the conditions of C69_defined_partial. The others are undefined behaviour or fatal: C42_undefined, C43_trailing_percent, media types of 128 bytes and more. yacc itself is not modelled: a file is the sequence of its directives."
  },
  {
   "property": "C70",
   "status": "partial",
   "theorems": [
    "Gmid.Props.C70_options_partial",
    "Gmid.Props.C70_endpoints_partial",
    "Gmid.Props.C70_option_misplaced"
   ],
   "note": "Proved when no server has options after its locations. Otherwise false: such an option is applied to the last location (C70_option_misplaced: a whole server is left without the client certificate it is to require)."
  },
  {
   "property": "C71",
   "status": "proved",
   "theorems": [
    "Gmid.Props.C71_last_server"
   ],
   "note": "Servers are kept in the reverse of their order, and the first match is used."
  },
  {
   "property": "C72",
   "status": "proved",
   "theorems": [
    "Gmid.Props.C72_global",
    "Gmid.Props.C72_servers"
   ],
   "note": "Every accepted file."
  },
  {
   "property": "C73",
   "status": "partial",
   "theorems": [
    "Gmid.Props.C73_same_file_partial",
    "Gmid.Props.C73_chroot_lost"
   ],
   "note": "Proved for everything but the chroot directory, and with it when the file names one or names no user. Otherwise false: the home directory of the user is forgotten (C73_chroot_lost), so that the access log is opened elsewhere."
  },
  {
   "property": "C74",
   "status": "partial",
   "theorems": [
    "Gmid.Props.C74_restart_partial",
    "Gmid.Props.C74_starts",
    "Gmid.Props.C74_log_style_kept"
   ],
   "note": "Proved when the new file gives the log style, or the one in use is the default. Otherwise false: C74_log_style_kept."
  },
  {
   "property": "C75",
   "status": "partial",
   "theorems": [
    "Gmid.Props.C75_facility_partial",
    "Gmid.Props.C75_local0"
   ],
   "note": "Proved for all but local0, which is not recognised (C75_local0)."
  },
  {
   "property": "C76",
   "status": "partial",
   "theorems": [
    "Gmid.Props.C76_log_partial",
    "Gmid.Props.C76_log_on_ignored"
   ],
   "note": "What applies is characterised exactly: log off anywhere wins. The property is false: C76_log_on_ignored."
  },
  {
   "property": "C77",
   "status": "partial",
   "theorems": [
    "Gmid.Props.C77_first_location_partial",
    "Gmid.Props.C77_later_not_ignored"
   ],
   "note": "The options set by the first matching location are in effect, and those of the server when none matches. The rest is false: for the options it does not set the later locations are not ignored (C77_later_not_ignored)."
  },
  {
   "property": "C78",
   "status": "partial",
   "theorems": [
    "Gmid.Props.C78_answered_partial",
    "Gmid.Props.C78_rsa_failure_fatal"
   ],
   "note": "Proved when the keys named are there and RSA operations succeed; a failing ECDSA signature is reported. The rest is false: a failing RSA operation ends the server process that asked for it (C78_rsa_failure_fatal)."
  },
  {
   "property": "C79",
   "status": "partial",
   "theorems": [
    "Gmid.Props.C79_reload_partial",
    "Gmid.Props.C79_request_during_reload"
   ],
   "note": "Proved as long as each request finds its key. The rest is false: between RECONF_START and the key no request does, even when the certificate is unchanged (C79_request_during_reload)."
  },
  {
   "property": "C80",
   "status": "partial",
   "theorems": [
    "Gmid.Props.C80_bounds_partial",
    "Gmid.Props.C80_overflow"
   ],
   "note": "Proved for terminated hashes and enough room. The rest is false: C80_overflow."
  },
  {
   "property": "C81",
   "status": "partial",
   "theorems": [
    "Gmid.Props.C81_gg_request_partial",
    "Gmid.Props.C81_gg_rejects",
    "Gmid.Props.C81_fragment_splits_request",
    "Gmid.Props.C81_proxy_arg"
   ],
   "note": "Proved for IRIs without a fragment; in a fragment parse_iri accepts any bytes, so the request can be split (C81_fragment_splits_request)."
  },
  {
   "property": "C82",
   "status": "partial",
   "theorems": [
    "Gmid.Props.C82_only_first_block",
    "Gmid.Props.C82_big_file_hangs",
    "Gmid.Props.C82_small_file_partial"
   ],
   "note": "Proved for files of at most one stdio block. The rest is false: the second block is never sent and titan waits forever (C82_only_first_block, C82_big_file_hangs)."
  },
  {
   "property": "C83",
   "status": "proved",
   "theorems": [
    "Gmid.Props.C83_titan_status",
    "Gmid.Props.C83_success_only_after_2x_3x"
   ],
   "note": "Every reply, every order of reads and writes; cstr stands for the reply being handled as a C string."
  },
  {
   "property": "C84",
   "status": "partial",
   "theorems": [
    "Gmid.Props.C84_titan_line",
    "Gmid.Props.C84_titan_rejects",
    "Gmid.Props.C84_line_names_resource_partial",
    "Gmid.Props.C84_escaped_break_splits",
    "Gmid.Props.C84_escaped_space_refused",
    "Gmid.Props.C84_port_dropped"
   ],
   "note": "The line sent is characterised exactly, and names the resource when nothing needs an escape. The rest is false: escapes are undone (C84_escaped_break_splits, C84_escaped_space_refused), the port is dropped (C84_port_dropped)."
  },
  {
   "property": "C85",
   "status": "proved",
   "theorems": [
    "Gmid.Props.C85_connected",
    "Gmid.Props.C85_one_end",
    "Gmid.Props.C85_only_these",
    "Gmid.Props.C85_not_replaced"
   ],
   "note": "Model of proc_init, proc_exec, proc_connect, proc_open and proc_accept; failing system calls are fatal and not modelled."
  },
  {
   "property": "C86",
   "status": "proved",
   "theorems": [
    "Gmid.Props.C86_ready"
   ],
   "note": "The messages of one socket come in order (C36)."
  },
  {
   "property": "C87",
   "status": "proved",
   "theorems": [
    "Gmid.Props.C87_all_end",
    "Gmid.Props.C87_until_then",
    "Gmid.Props.C87_main_last",
    "Gmid.Props.C87_daemon_main_first"
   ],
   "note": "A process that is not stopped and not stuck in one callback is assumed to go on. In the foreground the main process is the last to end; as a daemon it is not the parent of the others and does not wait for them (C87_daemon_main_first). In the foreground SIGCHLD comes also when a child is stopped, so SIGSTOP for one of them ends gmid."
  },
  {
   "property": "C88",
   "status": "proved",
   "theorems": [
    "Gmid.Props.C88_lines",
    "Gmid.Props.C88_at_start",
    "Gmid.Props.C88_text",
    "Gmid.Props.C88_descriptors"
   ],
   "note": "A write to the log that fails or is short is not modelled. What the server sends for a request is C49."
  },
  {
   "property": "C89",
   "status": "partial",
   "theorems": [
    "Gmid.Props.C89_reopened_partial",
    "Gmid.Props.C89_only_that_file",
    "Gmid.Props.C89_failed_reload"
   ],
   "note": "Proved when no reload failed before and the path fits. The rest is false: after a failed reload the main process has lost the path, so that SIGUSR1 ends the access log (C89_failed_reload)."
  },
  {
   "property": "C90",
   "status": "partial",
   "theorems": [
    "Gmid.Props.C90_requests_partial",
    "Gmid.Props.C90_memory_exactly",
    "Gmid.Props.C90_memory",
    "Gmid.Props.C90_end"
   ],
   "note": "Proved for messages that are non-empty requests, whatever is in them. The rest is false: the numbers in an IMSG_CTL_PROCFD are not checked (C90_memory; the same goes for the crypto process), and an empty request ends the logger (C90_end)."
  },
  {
   "property": "C91",
   "status": "proved",
   "theorems": [
    "Gmid.Props.C91_one_gmid",
    "Gmid.Props.C91_untouched",
    "Gmid.Props.C91_starts"
   ],
   "note": "fcntl(2) locks as in POSIX; the file is not removed or replaced by others. Not every descendant of a gmid that ended has ended as well: C87_daemon_main_first."
  },
  {
   "property": "C92",
   "status": "proved",
   "theorems": [
    "Gmid.Props.C92_one_meaning",
    "Gmid.Props.C92_every_directive",
    "Gmid.Props.C92_types_lines"
   ],
   "note": "For the grammar as it is written, without the rules with the token error. What yacc makes of it is not modelled."
  },
  {
   "property": "C93",
   "status": "proved",
   "theorems": [
    "Gmid.Props.C93_blank_lines",
    "Gmid.Props.C93_after_brace",
    "Gmid.Props.C93_at_start"
   ],
   "note": "Wherever there is a newline or semicolon, after every open brace and at the start. Between the options of a block none is needed either (the rules optnl), but in the block types and after a directive one is."
  },
  {
   "property": "C94",
   "status": "proved",
   "theorems": [
    "Gmid.Props.C94_started_as",
    "Gmid.Props.C94_all_start",
    "Gmid.Props.C94_argv_fits",
    "Gmid.Props.C94_empty_home"
   ],
   "note": "The user database answers the same to parent and children, and getpwnam(3) gives the entry of the name it is asked for. For correct command lines with the options of gmid(8); with the undocumented -U or -X, which only the parent is to use, the children get the value of the command line. A user whose home is empty, without a chroot, keeps the children from starting (C94_empty_home). execvp(3) and fork(2) do not fail. How the processes get connected is C85."
  },
  {
   "property": "C95",
   "status": "partial",
   "theorems": [
    "Gmid.Props.C95_confined_partial",
    "Gmid.Props.C95_server_reads",
    "Gmid.Props.C95_runs",
    "Gmid.Props.C95_no_way_back",
    "Gmid.Props.C95_truncate"
   ],
   "note": "For the build with landlock. Proved but for truncate(2); with a kernel before ABI 3 that is not restricted (C95_truncate). What landlock does not know about, like chmod(2), sockets or files that are already open, is not part of the model, and neither is the branch with pledge(2)."
  },
  {
   "property": "C96",
   "status": "partial",
   "theorems": [
    "Gmid.Props.C96_unknown_option_partial",
    "Gmid.Props.C96_missing_argument_partial",
    "Gmid.Props.C96_unknown_long_partial",
    "Gmid.Props.C96_bad_macro_partial",
    "Gmid.Props.C96_starts_nothing",
    "Gmid.Props.C96_stray_argument"
   ],
   "note": "Proved for wrong options. False for arguments that are not options: usage() does not end the process, so that gmid runs as if they were not there (C96_stray_argument)."
  },
  {
   "property": "C97",
   "status": "proved",
   "theorems": [
    "Gmid.Props.C97_accepted",
    "Gmid.Props.C97_judged"
   ],
   "note": "The names as OpenSSL decodes them; inet_pton is a parameter."
  },
  {
   "property": "C98",
   "status": "proved",
   "theorems": [
    "Gmid.Props.C98_certificates",
    "Gmid.Props.C98_offered"
   ],
   "note": ""
  },
  {
   "property": "C99",
   "status": "partial",
   "theorems": [
    "Gmid.Props.C99_common_address_partial",
    "Gmid.Props.C99_answers_elsewhere"
   ],
   "note": "False of the code: after the handshake the server is looked up by name among all servers, wherever they listen, so one that listens on the loopback address only answers on the public address to whoever asks for it (C99_answers_elsewhere). Proved for an address all servers listen on."
  },
  {
   "property": "C100",
   "status": "proved",
   "theorems": [
    "Gmid.Props.C100_open",
    "Gmid.Props.C100_dynamic",
    "Gmid.Props.C100_from_buffer",
    "Gmid.Props.C100_numbers",
    "Gmid.Props.C100_refused",
    "Gmid.Props.C100_empty_add"
   ],
   "note": "For buffers of at least a byte; in one without memory adding nothing is reported as an error (C100_empty_add)."
  },
  {
   "property": "C101",
   "status": "proved",
   "theorems": [
    "Gmid.Props.C101_everyone_gets_everything",
    "Gmid.Props.C101_leak_without_crypto"
   ],
   "note": "With the crypto process, as always in gmid; the code for running without it leaks a descriptor per key pair (C101_leak_without_crypto)."
  },
  {
   "property": "C102",
   "status": "proved",
   "theorems": [
    "Gmid.Props.C102_recallocarray",
    "Gmid.Props.C102_array_history",
    "Gmid.Props.C102_reallocarray",
    "Gmid.Props.C102_freezero"
   ],
   "note": "malloc, calloc and realloc are as the C standard has them, with any outcome."
  },
  {
   "property": "C103",
   "status": "partial",
   "theorems": [
    "Gmid.Props.C103_relay",
    "Gmid.Props.C103_fastcgi_tcp",
    "Gmid.Props.C103_clients",
    "Gmid.Props.C103_fastcgi_socket_partial",
    "Gmid.Props.C103_fastcgi_socket_fd",
    "Gmid.Props.C103_long_path"
   ],
   "note": "Proved for relays, FastCGI over TCP, the clients, and FastCGI sockets with paths of up to 107 bytes. False for longer ones, which are accepted and then truncated (C103_long_path)."
  },
  {
   "property": "C104",
   "status": "proved",
   "theorems": [
    "Gmid.Props.C104_tokens",
    "Gmid.Props.C104_one_meaning",
    "Gmid.Props.C104_says",
    "Gmid.Props.C104_written",
    "Gmid.Props.C104_semicolon",
    "Gmid.Props.C104_port_semicolon"
   ],
   "note": "files without includes and macros (those are C67, C68); a semicolon right after a number is not a separator: C104_semicolon, C104_port_semicolon"
  },
  {
   "property": "C105",
   "status": "partial",
   "theorems": [
    "Gmid.Props.C105_no_stall_partial",
    "Gmid.Props.C105_no_loss_partial",
    "Gmid.Props.C105_app_gone_stalls",
    "Gmid.Props.C105_not_always"
   ],
   "note": "C105_no_stall_partial holds for every history in which no FastCGI application goes away without ending its answer; C105_app_gone_stalls and C105_not_always show that the full claim is false of the code. C105_no_loss_partial excepts further requests that arrive while a FastCGI application answers the first (C62)."
  },
  {
   "property": "C106",
   "status": "proved",
   "theorems": [
    "Gmid.Props.C106_request_on_its_way",
    "Gmid.Props.C106_request_in_full",
    "Gmid.Props.C106_reply_read",
    "Gmid.Props.C106_line_before_tls"
   ],
   "note": "All histories. What the request line says is C11; a PROXY line left over from the client's own header is C35 (the size that wraps around there is excluded here: the read position starts at 0)."
  },
  {
   "property": "C107",
   "status": "partial",
   "theorems": [
    "Gmid.Props.C107_nothing_else",
    "Gmid.Props.C107_any_name",
    "Gmid.Props.C107_file",
    "Gmid.Props.C107_missing",
    "Gmid.Props.C107_listing",
    "Gmid.Props.C107_directory_partial",
    "Gmid.Props.C107_another_directory",
    "Gmid.Props.C107_options",
    "Gmid.Props.C107_two_directories"
   ],
   "note": "Holds for every connection and command line when the name of the directory is shorter than 4096 bytes; false for longer ones (C107_another_directory)."
  },
  {
   "property": "C108",
   "status": "partial",
   "theorems": [
    "Gmid.Props.C108_mkdirs",
    "Gmid.Props.C108_home_partial",
    "Gmid.Props.C108_relative_never_ends",
    "Gmid.Props.C108_home_is_root",
    "Gmid.Props.C108_top_level"
   ],
   "note": "Holds for absolute HOME directories; false for relative ones, for / and for top-level directories (witnesses). XDG_DATA_HOME goes through the same mkdirs (C108_mkdirs)."
  },
  {
   "property": "C109",
   "status": "partial",
   "theorems": [
    "Gmid.Props.C109_existing",
    "Gmid.Props.C109_a_pair",
    "Gmid.Props.C109_other_files",
    "Gmid.Props.C109_key_private_partial",
    "Gmid.Props.C109_key_for_everybody",
    "Gmid.Props.C109_failure_leaves_nothing",
    "Gmid.Props.C109_deletes_a_key",
    "Gmid.Props.C109_interrupted_partial",
    "Gmid.Props.C109_half_a_certificate"
   ],
   "note": "The pair, other files and failures are proved; the key's privacy, the user's own files on failure and crashes while the certificate is written are false of the code (witnesses)."
  },
  {
   "property": "C110",
   "status": "proved",
   "theorems": [
    "Gmid.Props.C110_in_order",
    "Gmid.Props.C110_composed",
    "Gmid.Props.C110_no_stall",
    "Gmid.Props.C110_goes_on",
    "Gmid.Props.C110_delivered"
   ],
   "note": "All histories and callbacks. Descriptors are C37. proc_flush_imsg is C101."
  },
  {
   "property": "C111",
   "status": "partial",
   "theorems": [
    "Gmid.Props.C111_none",
    "Gmid.Props.C111_meaning_partial",
    "Gmid.Props.C111_refused",
    "Gmid.Props.C111_never_old",
    "Gmid.Props.C111_server_partial",
    "Gmid.Props.C111_excluded_again",
    "Gmid.Props.C111_old_names"
   ],
   "note": "Proved for the lists that do not keep everything out before another exclusion; refuted in general (C111_excluded_again). Refusal (C111_refused) is exact for all strings."
  },
  {
   "property": "C112",
   "status": "partial",
   "theorems": [
    "Gmid.Props.C112_file_partial",
    "Gmid.Props.C112_unknown",
    "Gmid.Props.C112_certificate_partial",
    "Gmid.Props.C112_block_partial",
    "Gmid.Props.C112_one_header_partial",
    "Gmid.Props.C112_pieces"
   ],
   "note": "Missing: servers with options after a location (false, C70); strip in blocks (C24); ports above 32767 (C23)."
  },
  {
   "property": "C113",
   "status": "partial",
   "theorems": [
    "Gmid.Props.C113_same_name",
    "Gmid.Props.C113_names",
    "Gmid.Props.C113_key_found_partial",
    "Gmid.Props.C113_checked",
    "Gmid.Props.C113_wrong_key"
   ],
   "note": "Missing: nothing checks that the keys match their certificates; false without that hypothesis (C113_wrong_key)."
  },
  {
   "property": "C114",
   "status": "partial",
   "theorems": [
    "Gmid.Props.C114_says_ok",
    "Gmid.Props.C114_starts_partial",
    "Gmid.Props.C114_not_tested"
   ],
   "note": "Missing: the files that gmid -n does not look at, and kinds of keys; false without those hypotheses (C114_not_tested). Binding the sockets is assumed to succeed."
  },
  {
   "property": "C115",
   "status": "partial",
   "theorems": [
    "Gmid.Props.C115_first",
    "Gmid.Props.C115_accepts_partial",
    "Gmid.Props.C115_others_ignored"
   ],
   "note": "Missing: files with more than one CA, for which it is false (C115_others_ignored)."
  },
  {
   "property": "C116",
   "status": "partial",
   "theorems": [
    "Gmid.Props.C116_relayed_partial",
    "Gmid.Props.C116_certificate_partial",
    "Gmid.Props.C116_refused"
   ],
   "note": "Missing: requests with escapes before the query or bracketed addresses (false, C11), replies with a NUL or a code 21-29 in the header (false, C31), servers with options after a location (false, C70)."
  },
  {
   "property": "C117",
   "status": "partial",
   "theorems": [
    "Gmid.Props.C117_application_partial",
    "Gmid.Props.C117_unreachable",
    "Gmid.Props.C117_off"
   ],
   "note": "Missing: servers with options after a location (false, C70), certificate texts over 60000 bytes (C28_long_value), replies with codes 21-29 (false, C29) or a NUL in the header."
  },
  {
   "property": "C118",
   "status": "partial",
   "theorems": [
    "Gmid.Props.C118_no_stale_partial",
    "Gmid.Props.C118_carried_partial",
    "Gmid.Props.C118_request_stale",
    "Gmid.Props.C118_upstream_stale",
    "Gmid.Props.C118_relay_begins",
    "Gmid.Props.C118_application_stale",
    "Gmid.Props.C118_hello_stale",
    "Gmid.Props.C118_noname_stale",
    "Gmid.Props.C118_unknown_server",
    "Gmid.Props.C118_not_always"
   ],
   "note": "Proved for reloads that find every open connection with its reply header queued (C118_no_stale_partial, C118_carried_partial). Missing because false: connections that are shaking hands, waiting for a request, or waiting for an application's or upstream server's header read freed memory after any reload."
  },
  {
   "property": "C119",
   "status": "partial",
   "theorems": [
    "Gmid.Props.C119_request_bounded",
    "Gmid.Props.C119_reply_bounded_partial",
    "Gmid.Props.C119_input_grows",
    "Gmid.Props.C119_relay_grows",
    "Gmid.Props.C119_not_always"
   ],
   "note": "Proved: the request, for every history (C119_request_bounded), and replies made by the server itself (C119_reply_bounded_partial). Missing because false: input after the request and relayed replies grow without bound (C119_input_grows, C119_not_always, C119_relay_grows)."
  },
  {
   "property": "C120",
   "status": "proved",
   "theorems": [
    "Gmid.Props.C120_dropped",
    "Gmid.Props.C120_for_good",
    "Gmid.Props.C120_goes_on",
    "Gmid.Props.C120_started_ids",
    "Gmid.Props.C120_no_such_uid",
    "Gmid.Props.C120_compat_notices",
    "Gmid.Props.C120_groups_first"
   ],
   "note": "The main process keeps its privileges by design (it reopens files on reload); exec of set-user-id files is not modelled."
  },
  {
   "property": "C121",
   "status": "partial",
   "theorems": [
    "Gmid.Props.C121_table",
    "Gmid.Props.C121_all_partial",
    "Gmid.Props.C121_wrap"
   ],
   "note": "C121_table covers every history; that every open connection is in the table is proved of a server that accepted fewer than 2^32 connections, and C121_wrap proves it false after that."
  },
  {
   "property": "C122",
   "status": "partial",
   "theorems": [
    "Gmid.Props.C122_defined_partial",
    "Gmid.Props.C122_gemexp_partial",
    "Gmid.Props.C122_connection_partial",
    "Gmid.Props.C122_plain_name",
    "Gmid.Props.C122_domain",
    "Gmid.Props.C122_undefined",
    "Gmid.Props.C122_gemexp_undefined"
   ],
   "note": "C122_defined_partial and C122_gemexp_partial say exactly when it is undefined; C122_connection_partial covers every history of a connection with a name; C122_undefined and C122_gemexp_undefined prove the full claim false."
  },
  {
   "property": "C123",
   "status": "partial",
   "theorems": [
    "Gmid.Props.C123_request",
    "Gmid.Props.C123_line",
    "Gmid.Props.C123_gemexp_line_partial",
    "Gmid.Props.C123_gemexp_forged"
   ],
   "note": "One line per reply is proved for requests without control characters and false otherwise (C123_gemexp_forged); what the line shows is proved for every request that fits the buffer."
  },
  {
   "property": "C124",
   "status": "proved",
   "theorems": [
    "Gmid.Props.C124_listens",
    "Gmid.Props.C124_certificate"
   ],
   "note": ""
  },
  {
   "property": "C125",
   "status": "proved",
   "theorems": [
    "Gmid.Props.C125_sent_to",
    "Gmid.Props.C125_asked",
    "Gmid.Props.C125_set_up",
    "Gmid.Props.C125_sent_when",
    "Gmid.Props.C125_issuer",
    "Gmid.Props.C125_told",
    "Gmid.Props.C125_plain"
   ],
   "note": ""
  },
  {
   "property": "C126",
   "status": "partial",
   "theorems": [
    "Gmid.Props.C126_command_line",
    "Gmid.Props.C126_refused",
    "Gmid.Props.C126_check_only",
    "Gmid.Props.C126_peer",
    "Gmid.Props.C126_where",
    "Gmid.Props.C126_to_whom",
    "Gmid.Props.C126_shown",
    "Gmid.Props.C126_success",
    "Gmid.Props.C126_proxy_unverified"
   ],
   "note": "Command line, target, versions, what is sent and the exit status are proved in full. The name check is as the manual has it without -P; with -P the code skips it (C126_proxy_unverified), which the manual does not say."
  },
  {
   "property": "C127",
   "status": "partial",
   "theorems": [
    "Gmid.Props.C127_command_line",
    "Gmid.Props.C127_stdin",
    "Gmid.Props.C127_refused",
    "Gmid.Props.C127_sends",
    "Gmid.Props.C127_peer",
    "Gmid.Props.C127_broken",
    "Gmid.Props.C127_name_not_verified",
    "Gmid.Props.C127_certificate_killed",
    "Gmid.Props.C127_fifo"
   ],
   "note": "Command line, standard input, request line and target are proved in full. False of the code: the name of the server is never verified (C127_name_not_verified), a client certificate gets the program killed on OpenBSD (C127_certificate_killed), and the announced size of a file that is not regular can be wrong (C127_fifo)."
  },
  {
   "property": "C128",
   "status": "partial",
   "theorems": [
    "Gmid.Props.C128_dump_partial",
    "Gmid.Props.C128_check",
    "Gmid.Props.C128_reversed",
    "Gmid.Props.C128_not_the_same",
    "Gmid.Props.C128_quotes"
   ],
   "note": "The check, the status and what the dump says when read back are proved in full, for strings without quotes, backslashes and newlines. That it says the same as the file is false of the code: C128_reversed, C128_not_the_same, C128_quotes."
  },
  {
   "property": "C129",
   "status": "partial",
   "theorems": [
    "Gmid.Props.C129_says_partial",
    "Gmid.Props.C129_verbatim_partial",
    "Gmid.Props.C129_nothing_shown",
    "Gmid.Props.C129_success",
    "Gmid.Props.C129_quiet",
    "Gmid.Props.C129_utf8_locale",
    "Gmid.Props.C129_utf8_partial"
   ],
   "note": "Proved in full for C libraries whose putwc does not care for the orientation of the stream; with glibc the property is false: C129_nothing_shown."
  },
  {
   "property": "C130",
   "status": "partial",
   "theorems": [
    "Gmid.Props.C130_message",
    "Gmid.Props.C130_warn",
    "Gmid.Props.C130_warn_plain",
    "Gmid.Props.C130_fatal",
    "Gmid.Props.C130_settings",
    "Gmid.Props.C130_one_line",
    "Gmid.Props.C130_forged",
    "Gmid.Props.C130_percent"
   ],
   "note": "Everything but the last sentence is proved, log_warn for texts of errors without a percent sign; C130_percent and C130_forged show that the two do not hold of the code."
  },
  {
   "property": "C131",
   "status": "proved",
   "theorems": [
    "Gmid.Props.C131_certificate",
    "Gmid.Props.C131_blocked",
    "Gmid.Props.C131_refused",
    "Gmid.Props.C131_strip_bypass",
    "Gmid.Props.C131_existence",
    "Gmid.Props.C131_certificate_file",
    "Gmid.Props.C131_blocked_file"
   ],
   "note": "That the verification does not fail includes its failing with an error (C17_verify_error_authorises). The conditions on strip are needed: C131_strip_bypass."
  },
  {
   "property": "C132",
   "status": "partial",
   "theorems": [
    "Gmid.Props.C132_given_partial",
    "Gmid.Props.C132_long_partial",
    "Gmid.Props.C132_apart_partial",
    "Gmid.Props.C132_stall"
   ],
   "note": "Proved when more than 107 bytes have come, and when the header came apart from the rest; otherwise false of the code: C132_stall."
  },
  {
   "property": "C133",
   "status": "proved",
   "theorems": [
    "Gmid.Props.C133_file",
    "Gmid.Props.C133_block",
    "Gmid.Props.C133_certificate"
   ],
   "note": "With the conditions of C112: options of a server before its locations, openat and fstat as the kernel answers them; types and languages without CR; block return without strip, port below 32768 and a text of at most 1024 bytes."
  },
  {
   "property": "C134",
   "status": "partial",
   "theorems": [
    "Gmid.Props.C134_once_partial",
    "Gmid.Props.C134_forgotten",
    "Gmid.Props.C134_all",
    "Gmid.Props.C134_reseeded",
    "Gmid.Props.C134_repeats"
   ],
   "note": "Partial because bytes are repeated if a pid is used again (C134_repeats). ChaCha and getentropy are symbolic; the system's entropy is assumed to be always new."
  },
  {
   "property": "C135",
   "status": "proved",
   "theorems": [
    "Gmid.Props.C135_file",
    "Gmid.Props.C135_block",
    "Gmid.Props.C135_refused",
    "Gmid.Props.C135_missing",
    "Gmid.Props.C135_redirect",
    "Gmid.Props.C135_unlisted",
    "Gmid.Props.C135_index",
    "Gmid.Props.C135_listing"
   ],
   "note": "With the conditions of C116 and C112; without the PROXY line between the two; URL of at most 1023 bytes, as serialize_iri adds a slash to a URL with an empty path."
  },
  {
   "property": "C136",
   "status": "proved",
   "theorems": [
    "Gmid.Props.C136_missing",
    "Gmid.Props.C136_redirect",
    "Gmid.Props.C136_unlisted",
    "Gmid.Props.C136_index",
    "Gmid.Props.C136_listing"
   ],
   "note": "With the conditions of C133; the path redirected to has no CR (C59); path and index name together fit PATH_MAX; the kernel's answers to openat, fstat and readdir are parameters."
  },
  {
   "property": "C137",
   "status": "partial",
   "theorems": [
    "Gmid.Props.C137_application_partial",
    "Gmid.Props.C137_unreachable"
   ],
   "note": "As C117: the server's options come before its locations (C70), codes 21 to 29 (C29_code_2x) are left out, and the text and language have no CR (C59); C137_unreachable has no such restriction but the first."
  },
  {
   "property": "C138",
   "status": "proved",
   "theorems": [
    "Gmid.Props.C138_reference",
    "Gmid.Props.C138_location",
    "Gmid.Props.C138_server"
   ],
   "note": "fnmatch(3) itself is libc's: `?', brackets and backslashes depend on the locale and are left out; a libc that fails with an error on text that is not valid in the locale does not satisfy the hypothesis. Options before locations as in C70."
  },
  {
   "property": "C139",
   "status": "partial",
   "theorems": [
    "Gmid.Props.C139_whole_file",
    "Gmid.Props.C139_changed_file",
    "Gmid.Props.C139_server",
    "Gmid.Props.C139_crypto",
    "Gmid.Props.C139_parse_failure",
    "Gmid.Props.C139_goes_on_partial",
    "Gmid.Props.C139_ends"
   ],
   "note": "False of the code: C139_ends; what holds, exactly, is C139_goes_on_partial, with C139_parse_failure. Sockets can be created and bound; parse_conf's media types fit (C69); that one process ending ends all is gmid.c:528-534."
  },
  {
   "property": "C140",
   "status": "proved",
   "theorems": [
    "Gmid.Props.C140_connected",
    "Gmid.Props.C140_logged",
    "Gmid.Props.C140_open"
   ],
   "note": "For every history of the process model of C55, also those in which it goes wrong. The int does not overflow: there are fewer descriptors than that."
  },
  {
   "property": "C141",
   "status": "partial",
   "theorems": [
    "Gmid.Props.C141_read",
    "Gmid.Props.C141_close_tells",
    "Gmid.Props.C141_close_once",
    "Gmid.Props.C141_handshake",
    "Gmid.Props.C141_gg_whole_partial",
    "Gmid.Props.C141_gg_cut",
    "Gmid.Props.C141_relay_cut",
    "Gmid.Props.C141_relay_blind"
   ],
   "note": "False of the code: C141_gg_cut and C141_relay_cut (for every reply and every cut). Proved: what libtls says of reads and closing (C141_read, C141_close_tells, C141_close_once), of the handshake (C141_handshake, with its exception), and gg when OpenSSL has an error for a cut."
  },
  {
   "property": "C142",
   "status": "partial",
   "theorems": [
    "Gmid.Props.C142_hash",
    "Gmid.Props.C142_time",
    "Gmid.Props.C142_accepted",
    "Gmid.Props.C142_without",
    "Gmid.Props.C142_no_times",
    "Gmid.Props.C142_refused",
    "Gmid.Props.C142_told",
    "Gmid.Props.C142_no_certificate"
   ],
   "note": "False of the code for one second (C142_refused; C142_accepted is an equivalence). The rest is proved: C142_told, C142_hash, C142_time, C142_no_certificate. The texts of the times are for the years from 1000 on."
  },
  {
   "property": "C143",
   "status": "proved",
   "theorems": [
    "Gmid.Props.C143_init",
    "Gmid.Props.C143_insert_tail",
    "Gmid.Props.C143_insert_head",
    "Gmid.Props.C143_insert_head_zero",
    "Gmid.Props.C143_remove",
    "Gmid.Props.C143_first",
    "Gmid.Props.C143_next_prev",
    "Gmid.Props.C143_last",
    "Gmid.Props.C143_foreach",
    "Gmid.Props.C143_purge",
    "Gmid.Props.C143_macros",
    "Gmid.Props.C143_popfile"
   ],
   "note": "An element's strings, keys and descriptors are not in this memory. TAILQ_REPLACE, TAILQ_CONCAT, TAILQ_INSERT_AFTER, TAILQ_INSERT_BEFORE and the reverse walks are not in use."
  },
  {
   "property": "C144",
   "status": "proved",
   "theorems": [
    "Gmid.Props.C144_goes_with_the_certificate",
    "Gmid.Props.C144_the_right_certificate",
    "Gmid.Props.C144_from_the_files"
   ],
   "note": "A session that is resumed shows no certificate and staples nothing, which is in OpenSSL. The hypothesis that certificates have proper names (C144_the_right_certificate only) is that of C97/C98."
  },
  {
   "property": "C145",
   "status": "proved",
   "theorems": [
    "Gmid.Props.C145_load",
    "Gmid.Props.C145_whole",
    "Gmid.Props.C145_truncated",
    "Gmid.Props.C145_not_regular",
    "Gmid.Props.C145_replaced",
    "Gmid.Props.C145_key_erased"
   ],
   "note": "That the compiler keeps the memset of freezero is assumed. C145_not_regular is the case of a pipe. The old buffer that tls_config_load_file frees by itself (a certificate) is not erased; the key is, by tls_keypair_clear_key (C145_key_erased)."
  },
  {
   "property": "C146",
   "status": "partial",
   "theorems": [
    "Gmid.Props.C146_logged_partial",
    "Gmid.Props.C146_read",
    "Gmid.Props.C146_told_apart",
    "Gmid.Props.C146_rejected",
    "Gmid.Props.C146_no_name_undefined"
   ],
   "note": "False of the code when there is no name for the address of the proxy: C146_no_name_undefined. The rest is proved: C146_logged_partial, C146_read, C146_told_apart, C146_rejected. The hypothesis NumericNames is what getnameinfo with NI_NUMERICHOST gives."
  }
 ]
}