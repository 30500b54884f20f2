{
 "claims": [
  {
   "property": "C01",
   "status": "partial",
   "theorems": [
    "Verif.SshBuf.C01_queue_partial",
    "Verif.SshBuf.C01_queue_from",
    "Verif.SshBuf.C01_error_unchanged",
    "Verif.SshBuf.C01_reset_small_max_breaks",
    "Verif.SshBuf.C01_queue_false"
   ],
   "note": "Holds for all histories that never set a maximum below 256 bytes or never reset; false otherwise (sshbuf_reset reallocates to 256 bytes ignoring max_size), shown by a witness. Error clause exception: string reads whose result cannot be allocated."
  },
  {
   "property": "C02",
   "status": "proved",
   "theorems": [
    "Verif.SshBuf.C02_roundtrip_u8",
    "Verif.SshBuf.C02_roundtrip_u16",
    "Verif.SshBuf.C02_roundtrip_u32",
    "Verif.SshBuf.C02_roundtrip_u64",
    "Verif.SshBuf.C02_roundtrip_string",
    "Verif.SshBuf.C02_roundtrip_cstring",
    "Verif.SshBuf.C02_roundtrip_mpint",
    "Verif.SshBuf.C02_mpint_value",
    "Verif.SshBuf.C02_canonical_int",
    "Verif.SshBuf.C02_canonical_string"
   ],
   "note": ""
  },
  {
   "property": "C03",
   "status": "partial",
   "theorems": [
    "Verif.SshBuf.C03_failed_read_unchanged",
    "Verif.SshBuf.C03_get_stringb_consumes_on_error"
   ],
   "note": "Proved for every reader except sshbuf_get_stringb, for which the claim is false (witness theorem)."
  },
  {
   "property": "C05",
   "status": "proved",
   "theorems": [
    "Verif.Match.C05_match_pattern"
   ],
   "note": ""
  },
  {
   "property": "C06",
   "status": "proved",
   "theorems": [
    "Verif.Match.C06_negative_iff",
    "Verif.Match.C06_positive_iff",
    "Verif.Match.C06_results",
    "Verif.Match.C06_negation_wins",
    "Verif.Match.C06_all_negative",
    "Verif.Match.C06_hostname"
   ],
   "note": "Entries of 1023 or more characters make the list not match; explicit in the statements."
  },
  {
   "property": "C07",
   "status": "proved",
   "theorems": [
    "Verif.Match.C07_match_list",
    "Verif.Match.C07_selected_iff",
    "Verif.Match.C07_none_iff",
    "Verif.Match.C07_next"
   ],
   "note": "Names end at the first empty one and at most 40 server names are considered, explicit in the statements."
  },
  {
   "property": "C08",
   "status": "proved",
   "theorems": [
    "Verif.Match.C08_filter",
    "Verif.Match.C08_filter_names",
    "Verif.Match.C08_kept_iff",
    "Verif.Match.C08_filter_general"
   ],
   "note": ""
  },
  {
   "property": "C09",
   "status": "partial",
   "theorems": [
    "Verif.Addr.C09_netmatch_partial",
    "Verif.Addr.C09_text",
    "Verif.Addr.C09_invalid_length",
    "Verif.Addr.C09_text_invalid_length",
    "Verif.Addr.C09_scoped_address_false"
   ],
   "note": "Proved whenever IPv6 scope ids agree; false for scoped IPv6 addresses (witness theorem)."
  },
  {
   "property": "C51",
   "status": "partial",
   "theorems": [
    "Verif.Addr.C51_list",
    "Verif.Addr.C51_negation_wins",
    "Verif.Addr.C51_cidr_list_partial",
    "Verif.Addr.C51_cidr_error_lost"
   ],
   "note": "addr_match_list fully characterised; the CIDR-only variant loses an error (witness)."
  },
  {
   "property": "C10",
   "status": "proved",
   "theorems": [
    "Verif.Bitmap.C10_set",
    "Verif.Bitmap.C10_accepts",
    "Verif.Bitmap.C10_nbits",
    "Verif.Bitmap.C10_string",
    "Verif.Bitmap.C10_roundtrip",
    "Verif.Bitmap.C10_roundtrip_accepted"
   ],
   "note": ""
  },
  {
   "property": "C11",
   "status": "proved",
   "theorems": [
    "Verif.Krl.C11_check",
    "Verif.Krl.C11_ranges",
    "Verif.Krl.C11_order"
   ],
   "note": "KRL built by any sequence of calls, for any search-tree shape; hashes and key serialisation are parameters"
  },
  {
   "property": "C12",
   "status": "partial",
   "theorems": [
    "Verif.Krl.C12_verdicts_partial",
    "Verif.Krl.C12_readable",
    "Verif.Krl.C12_unreadable"
   ],
   "note": "Reading what was written preserves every verdict, and always succeeds if serials per CA span less than 16384; the unconditional claim is false of the code: serials 1,3,...,2n-1 with n>=8193 are written but refused on reading (C12_unreadable)"
  },
  {
   "property": "C13",
   "status": "partial",
   "theorems": [
    "Verif.Kex.C13_agree",
    "Verif.Kex.C13_together",
    "Verif.Kex.C13_choice",
    "Verif.Kex.C13_fails_iff_partial",
    "Verif.Kex.C13_wire",
    "Verif.Kex.C13_long_list_false"
   ],
   "note": "Agreement and choice proved for all proposals; failure iff a required pair is disjoint is proved for server lists of at most forty names and is false beyond (witness theorem)."
  },
  {
   "property": "C14",
   "status": "proved",
   "theorems": [
    "Verif.Kex.C14_decision",
    "Verif.Kex.C14_guess",
    "Verif.Kex.C14_nothing_else"
   ],
   "note": ""
  },
  {
   "property": "C53",
   "status": "proved",
   "theorems": [
    "Verif.Kex.C53_rfc",
    "Verif.Kex.C53_agree",
    "Verif.Kex.C53_letters",
    "Verif.Kex.C53_session_id"
   ],
   "note": "The hash is an arbitrary function of fixed output length."
  },
  {
   "property": "C54",
   "status": "proved",
   "theorems": [
    "Verif.Kex.C54_names_cat",
    "Verif.Kex.C54_explicit",
    "Verif.Kex.C54_empty",
    "Verif.Kex.C54_remove",
    "Verif.Kex.C54_append",
    "Verif.Kex.C54_prepend"
   ],
   "note": ""
  },
  {
   "property": "C15",
   "status": "proved",
   "theorems": [
    "Verif.Packet.C15_no_reuse",
    "Verif.Packet.C15_strict_restart",
    "Verif.Packet.C15_consecutive",
    "Verif.Packet.C15_no_wrap_initial",
    "Verif.Packet.C15_wrap_exits",
    "Verif.Packet.C15_receive",
    "Verif.Packet.C15_receive_no_wrap"
   ],
   "note": "Ciphers and MACs are parameters; connections without the SSH_BUG_NOREKEY compatibility flag."
  },
  {
   "property": "C16",
   "status": "proved",
   "theorems": [
    "Verif.Packet.C16_chunks",
    "Verif.Packet.C16_roundtrip"
   ],
   "note": "Ciphers and MACs are parameters satisfying the laws in Spec.lean (instances in Toy.lean); compression not modelled."
  },
  {
   "property": "C17",
   "status": "proved",
   "theorems": [
    "Verif.Packet.C17_checked",
    "Verif.Packet.C17_discard",
    "Verif.Packet.C17_prefix"
   ],
   "note": "Unforgeability of the cipher/MAC is an explicit hypothesis (Unforged) of C17_prefix."
  },
  {
   "property": "C18",
   "status": "proved",
   "theorems": [
    "Verif.Packet.C18_only_kex",
    "Verif.Packet.C18_order",
    "Verif.Packet.C18_prefix",
    "Verif.Packet.C18_open"
   ],
   "note": ""
  },
  {
   "property": "C55",
   "status": "proved",
   "theorems": [
    "Verif.Packet.C55_bucket",
    "Verif.Packet.C55_wire"
   ],
   "note": ""
  },
  {
   "property": "C04",
   "status": "proved",
   "theorems": [
    "Verif.SshBuf.C04_no_fault",
    "Verif.SshBuf.C04_stable",
    "Verif.SshBuf.C04_release",
    "Verif.SshBuf.C04_no_leak",
    "Verif.SshBuf.C04_free_returns",
    "Verif.SshBuf.C04_fromb",
    "Verif.SshBuf.C04_froms"
   ],
   "note": "Explicit heap with storage blocks and reference counts; all interleavings of calls by holders. sshbuf_froms' effect on contents is for buffers satisfying the representation invariant (outside the sshbuf_reset defect of C01)."
  },
  {
   "property": "C19",
   "status": "partial",
   "theorems": [
    "Verif.Chan.C19_send",
    "Verif.Chan.C19_maxpacket",
    "Verif.Chan.C19_recv_partial",
    "Verif.Chan.C19_recv_bound_partial",
    "Verif.Chan.C19_recv_false"
   ],
   "note": "Sending half proved for all histories. Receiving half proved for a peer that keeps to its credit; false otherwise: an empty data packet resets the excess counter, so a peer can exceed its window without limit (C19_recv_false)."
  },
  {
   "property": "C20",
   "status": "proved",
   "theorems": [
    "Verif.Chan.C20_close_last",
    "Verif.Chan.C20_close_last_strict",
    "Verif.Chan.C20_eof_last",
    "Verif.Chan.C20_freed",
    "Verif.Chan.C20_progress",
    "Verif.Chan.C20_release",
    "Verif.Chan.C20_half_open_kept",
    "Verif.Chan.C20_undelivered_kept",
    "Verif.Chan.C20_opening_cleanup_fatal"
   ],
   "note": "All histories of the modelled channel events. C20_opening_cleanup_fatal records a defect found: cleaning up an unconfirmed multiplexed session ends the master."
  },
  {
   "property": "C21",
   "status": "proved",
   "theorems": [
    "Verif.Chan.C21_new",
    "Verif.Chan.C21_event",
    "Verif.Chan.C21_identity",
    "Verif.Chan.C21_reuse",
    "Verif.Chan.C21_bound"
   ],
   "note": "Over all histories of a table of channels."
  },
  {
   "property": "C22",
   "status": "proved",
   "theorems": [
    "Verif.Permit.C22_direct_tcpip",
    "Verif.Permit.C22_direct_streamlocal",
    "Verif.Permit.C22_tcpip_forward",
    "Verif.Permit.C22_streamlocal_forward",
    "Verif.Permit.C22_permitlisten_slash_fatal",
    "Verif.Permit.C22_client_tcp",
    "Verif.Permit.C22_client_path"
   ],
   "note": "From configuration text and key options to the decision. Records that listening on Unix sockets ignores PermitListen, and that permitlisten with a slash ends the session."
  },
  {
   "property": "C56",
   "status": "proved",
   "theorems": [
    "Verif.Chan.C56_outgoing",
    "Verif.Chan.C56_incoming",
    "Verif.Chan.C56_eof_complete",
    "Verif.Chan.C56_accept_order",
    "Verif.Chan.C56_delivered"
   ],
   "note": "Stream channels; datagram channels excluded. Filters are not modelled."
  },
  {
   "property": "C57",
   "status": "partial",
   "theorems": [
    "Verif.Chan.C57_conserved_partial",
    "Verif.Chan.C57_no_starvation_partial",
    "Verif.Chan.C57_leak"
   ],
   "note": "Holds while every byte received is of use to the channel; false in general: extended data dropped because the descriptor is closed is never credited (C57_leak)."
  },
  {
   "property": "C23",
   "status": "proved",
   "theorems": [
    "Verif.Auth.C23_login_backed",
    "Verif.Auth.C23_step_backed",
    "Verif.Auth.C23_same_user",
    "Verif.Auth.C23_none_once",
    "Verif.Auth.C23_tries",
    "Verif.Auth.C23_tries_fair",
    "Verif.Auth.C23_final"
   ],
   "note": "Server-side authentication state machine; the individual methods' verdicts are an oracle attached to each message. GSSAPI build not modelled."
  },
  {
   "property": "C24",
   "status": "proved",
   "theorems": [
    "Verif.Auth.C24_login_needs_list",
    "Verif.Auth.C24_whole_list_ends",
    "Verif.Auth.C24_single",
    "Verif.Auth.C24_offered"
   ],
   "note": "Progress through AuthenticationMethods lists over whole histories, including submethods."
  },
  {
   "property": "C58",
   "status": "proved",
   "theorems": [
    "Verif.Auth.C58_one_guess"
   ],
   "note": "Device iteration over any client-supplied list, over the whole request."
  },
  {
   "property": "C25",
   "status": "partial",
   "theorems": [
    "Verif.KeyOpts.C25_both_grant",
    "Verif.KeyOpts.C25_primary",
    "Verif.KeyOpts.C25_additional_partial",
    "Verif.KeyOpts.C25_key_cert",
    "Verif.KeyOpts.C25_refused_iff",
    "Verif.KeyOpts.C25_expiry_lost",
    "Verif.KeyOpts.C25_lists_lost",
    "Verif.KeyOpts.C25_session"
   ],
   "note": "Merging a key line with a certificate never permits more than either (C25_key_cert). For two arbitrary option sets the claim is false of the code: the second set's expiry and its permitopen/permitlisten/from/tunnel values are dropped (C25_expiry_lost, C25_lists_lost); C25_additional_partial is the part that holds."
  },
  {
   "property": "C26",
   "status": "proved",
   "theorems": [
    "Verif.KeyOpts.C26_line",
    "Verif.KeyOpts.C26_options",
    "Verif.KeyOpts.C26_unknown_refused",
    "Verif.KeyOpts.C26_trusted",
    "Verif.KeyOpts.C26_host",
    "Verif.KeyOpts.C26_plain",
    "Verif.KeyOpts.C26_file",
    "Verif.KeyOpts.C26_comma_in_name",
    "Verif.KeyOpts.C26_nameless",
    "Verif.KeyOpts.C26_principals",
    "Verif.KeyOpts.C26_plain_principal"
   ],
   "note": "Acceptance of a user certificate by a key file line, by a trusted CA with principals sources, and of host certificates, as exact conditions; the signature check is a flag of the certificate. Two surprising but real behaviours are exhibited (comma in a principal name, nameless certificates)."
  },
  {
   "property": "C59",
   "status": "proved",
   "theorems": [
    "Verif.KeyOpts.C59_parse",
    "Verif.KeyOpts.C59_same_end",
    "Verif.KeyOpts.C59_permissions",
    "Verif.KeyOpts.C59_expiry",
    "Verif.KeyOpts.C59_environment",
    "Verif.KeyOpts.C59_clauses"
   ],
   "note": "Exact grammar and meaning of the option text, for every text; the end found by the options parser and by the key reader agree."
  },
  {
   "property": "C46",
   "status": "proved",
   "theorems": [
    "Verif.Access.C46_allowed",
    "Verif.Access.C46_deny",
    "Verif.Access.C46_allow",
    "Verif.Access.C46_group_list"
   ],
   "note": "Exact condition for admitting an account, with the meaning of user@host patterns spelled out through the wildcard, negation and CIDR specifications; account data, shell status and group names are given."
  },
  {
   "property": "C27",
   "status": "proved",
   "theorems": [
    "Verif.Monitor.C27_order",
    "Verif.Monitor.C27_refused",
    "Verif.Monitor.C27_once",
    "Verif.Monitor.C27_logged",
    "Verif.Monitor.C27_accept",
    "Verif.Monitor.C27_password",
    "Verif.Monitor.C27_pam",
    "Verif.Monitor.C27_pam_answers",
    "Verif.Monitor.C27_tries",
    "Verif.Monitor.C27_post",
    "Verif.Monitor.C27_clash_crashes"
   ],
   "note": "Both monitor loops against a child that may send any bytes; back ends (passwords, PAM, key lookup, signatures) are oracles. C27_clash_crashes records a flaw: two keys bound to different commands lead to a NULL pointer after acceptance."
  },
  {
   "property": "C28",
   "status": "proved",
   "theorems": [
    "Verif.Monitor.C28_key",
    "Verif.Monitor.C28_data",
    "Verif.Monitor.C28_touch",
    "Verif.Monitor.C28_approved",
    "Verif.Monitor.C28_reuse"
   ],
   "note": "Signed data is parsed byte for byte and shown to be the request of this session and user; the signature primitive and key parsing are oracles."
  },
  {
   "property": "C60",
   "status": "proved",
   "theorems": [
    "Verif.Monitor.C60_before",
    "Verif.Monitor.C60_after",
    "Verif.Monitor.C60_session"
   ],
   "note": "Over all conversations, before and after authentication."
  },
  {
   "property": "C29",
   "status": "proved",
   "theorems": [
    "Verif.Startup.C29_percent",
    "Verif.Startup.C29_monotone"
   ],
   "note": "Share of the hundred random values that drop, for every threshold triple accepted by the configuration with 99*full below 2^31."
  },
  {
   "property": "C30",
   "status": "partial",
   "theorems": [
    "Verif.Startup.C30_exact",
    "Verif.Startup.C30_never_more",
    "Verif.Startup.C30_limit",
    "Verif.Startup.C30_exhausted",
    "Verif.Startup.C30_login_keeps_slot"
   ],
   "note": "The limit is never exceeded (proved for the slot functions alone and for the whole listener). That finished connections free their slot is false for connections that end in a login: sshd.c closes the child without calling srclimit_done; witness and general consequence proved."
  },
  {
   "property": "C31",
   "status": "partial",
   "theorems": [
    "Verif.Startup.C31_total",
    "Verif.Startup.C31_check",
    "Verif.Startup.C31_size",
    "Verif.Startup.C31_offence",
    "Verif.Startup.C31_exit",
    "Verif.Startup.C31_bound_partial",
    "Verif.Startup.C31_first_uncapped"
   ],
   "note": "Exact ledger for all histories, table sizes, refusal rule. The cap holds for accumulated penalties only: a single first penalty above the maximum is not capped (witness)."
  },
  {
   "property": "C61",
   "status": "proved",
   "theorems": [
    "Verif.Startup.C61_counts",
    "Verif.Startup.C61_total",
    "Verif.Startup.C61_free"
   ],
   "note": "Invariant over all event histories of the listener."
  },
  {
   "property": "C32",
   "status": "partial",
   "theorems": [
    "Verif.Agent.C32_total",
    "Verif.Agent.C32_table",
    "Verif.Agent.C32_lock_state",
    "Verif.Agent.C32_locked",
    "Verif.Agent.C32_unlock",
    "Verif.Agent.C32_lock",
    "Verif.Agent.C32_use",
    "Verif.Agent.C32_signature",
    "Verif.Agent.C32_expired_partial",
    "Verif.Agent.C32_expired_false",
    "Verif.Agent.C32_round",
    "Verif.Agent.C32_remove_all",
    "Verif.Agent.C32_add_new",
    "Verif.Agent.C32_add_again",
    "Verif.Agent.C32_add_bad",
    "Verif.Agent.C32_remove",
    "Verif.Agent.C32_unchanged",
    "Verif.Agent.C32_token",
    "Verif.Agent.C32_token_remove",
    "Verif.Agent.C32_add_request"
   ],
   "note": "Over all request histories on any number of connections. Missing: a key whose deadline passes during a round of the main loop is still used until the next round; C32_expired_false is a witness and C32_expired_partial the bound that holds."
  },
  {
   "property": "C33",
   "status": "proved",
   "theorems": [
    "Verif.Agent.C33_sign",
    "Verif.Agent.C33_granted",
    "Verif.Agent.C33_listed",
    "Verif.Agent.C33_bindings",
    "Verif.Agent.C33_attempted",
    "Verif.Agent.C33_attempted_stays",
    "Verif.Agent.C33_long_sid",
    "Verif.Agent.C33_empty_restriction"
   ],
   "note": "Exact condition for listing and use over all histories and constraint lists; the bindings are reconstructed from requests and answers. Key parsing, signatures and certificate checks are oracles."
  },
  {
   "property": "C39",
   "status": "partial",
   "theorems": [
    "Verif.Misc.Argv.C39_split_iff",
    "Verif.Misc.Argv.C39_roundtrip_partial",
    "Verif.Misc.Argv.C39_empty_lost",
    "Verif.Misc.Argv.C39_comment_lost"
   ],
   "note": "Exact grammar of accepted lines proved for all strings. The round trip holds for all vectors of non-empty arguments; it is false for empty arguments (assembled to nothing) and, with comments recognised, for arguments beginning with #; both witnesses proved."
  },
  {
   "property": "C40",
   "status": "proved",
   "theorems": [
    "Verif.Misc.Time.C40_iff",
    "Verif.Misc.Time.C40_rejected",
    "Verif.Misc.Time.C40_unique"
   ],
   "note": "For all strings, against an independent grammar of durations."
  },
  {
   "property": "C41",
   "status": "proved",
   "theorems": [
    "Verif.Misc.Expand.C41_expand",
    "Verif.Misc.Expand.C41_bad",
    "Verif.Misc.Expand.C41_missing",
    "Verif.Misc.Expand.C41_single_pass",
    "Verif.Misc.Expand.C41_percent_total"
   ],
   "note": "For all strings, key tables and environments; results over the 128 MB buffer limit are not modelled."
  },
  {
   "property": "C42",
   "status": "partial",
   "theorems": [
    "Verif.Misc.Io.C42_prefix",
    "Verif.Misc.Io.C42_complete",
    "Verif.Misc.Io.C42_count_partial",
    "Verif.Misc.Io.C42_full",
    "Verif.Misc.Io.C42_keeps_trying",
    "Verif.Misc.Io.C42_error_count_false",
    "Verif.Misc.Io.C42_vector",
    "Verif.Misc.Io.C42_vector_empty_first"
   ],
   "note": "For all schedules of system call results. Missing: after a permanent error the count is not exact, the function returns 0 (witness). Vectors are equivalent to their concatenation unless they begin with an empty buffer (witness)."
  },
  {
   "property": "C38",
   "status": "proved",
   "theorems": [
    "Verif.Hostfile.C38_revoked",
    "Verif.Hostfile.C38_otherwise",
    "Verif.Hostfile.C38_changed",
    "Verif.Hostfile.C38_lookup",
    "Verif.Hostfile.C38_load",
    "Verif.Hostfile.C38_file",
    "Verif.Hostfile.C38_file_cert",
    "Verif.Hostfile.C38_base64",
    "Verif.Hostfile.C38_tab_ignored",
    "Verif.Hostfile.C38_malformed_ignored",
    "Verif.Hostfile.C38_stale_buffer"
   ],
   "note": "For all entry lists, and for all files of newline-terminated lines against an independent grammar of lines; base64, HMAC and key parsing are parameters. Any unmarked entry with another key, even of another type, counts as changed. Witnesses: a revocation marker followed by a tab is silently ignored; a last line without newline may take its key from stale buffer contents."
  },
  {
   "property": "C62",
   "status": "proved",
   "theorems": [
    "Verif.Hostfile.C62_kept",
    "Verif.Hostfile.C62_listed",
    "Verif.Hostfile.C62_shared_line_lost",
    "Verif.Hostfile.C62_hashed_case"
   ],
   "note": "For all files of newline-terminated lines. The key theorem assumes names that stand for themselves (lower-case if hashed; witness otherwise) and keys that can be written and read back. A line naming several hosts goes as a whole (witness)."
  },
  {
   "property": "C63",
   "status": "proved",
   "theorems": [
    "Verif.Misc.Base64.C63_encode",
    "Verif.Misc.Base64.C63_decode",
    "Verif.Misc.Base64.C63_b64tod",
    "Verif.Misc.Base64.C63_unique",
    "Verif.Misc.Base64.C63_roundtrip",
    "Verif.Hostfile.C38_base64"
   ],
   "note": "For all byte strings and texts, against RFC 4648 stated with 24-bit numbers. Decoding wants one spare byte of room unless the length is a multiple of three."
  },
  {
   "property": "C43",
   "status": "proved",
   "theorems": [
    "Verif.Crypto.Poly.C43_poly1305",
    "Verif.Crypto.Poly.C43_poly1305_iff"
   ],
   "note": "Poly1305: the limb code equals the RFC 8439 polynomial for all messages and 32-byte keys; all 32/64-bit truncations are modelled."
  },
  {
   "property": "C44",
   "status": "proved",
   "theorems": [
    "Verif.Crypto.ChaCha.C44_stream",
    "Verif.Crypto.ChaCha.C44_context",
    "Verif.Crypto.ChaCha.C44_decrypt",
    "Verif.Crypto.ChaCha.C44_setup"
   ],
   "note": "ChaCha20 against the matrix description with a 64-bit counter; the uninitialised part of the temporary block is arbitrary."
  },
  {
   "property": "C64",
   "status": "proved",
   "theorems": [
    "Verif.Crypto.ChaCha.C64_sealed",
    "Verif.Crypto.ChaCha.C64_opened",
    "Verif.Crypto.ChaCha.C64_roundtrip",
    "Verif.Crypto.ChaCha.C64_length",
    "Verif.Crypto.ChaCha.C64_fresh"
   ],
   "note": "cipher-chachapoly.c (the variant without libcrypto)."
  },
  {
   "property": "C49",
   "status": "partial",
   "theorems": [
    "Verif.Tty.C49_roundtrip_partial",
    "Verif.Tty.C49_complete",
    "Verif.Tty.C49_trailing",
    "Verif.Tty.C49_short",
    "Verif.Tty.C49_cases",
    "Verif.Tty.C49_char",
    "Verif.Tty.C49_flag",
    "Verif.Tty.C49_speed",
    "Verif.Tty.C49_speed_same",
    "Verif.Tty.C49_char_lost",
    "Verif.Tty.C49_cs7_lost"
   ],
   "note": "Parsing is characterised completely (unknown opcodes below 160 never misalign). Round trip between any two platforms proved except for the two losses, which are proved to occur: a control character 255 becomes \"disabled\", and on Linux CS7 becomes CS8 because the masks overlap."
  },
  {
   "property": "C50",
   "status": "proved",
   "theorems": [
    "Verif.Scp.C50_confined"
   ],
   "note": "sink over any stream and any system answers. Symbolic links already present are followed by the system calls themselves (names only are confined)."
  },
  {
   "property": "C65",
   "status": "proved",
   "theorems": [
    "Verif.Scp.C65_roundtrip",
    "Verif.Scp.C65_single",
    "Verif.Scp.C65_content",
    "Verif.Scp.C65_setuid"
   ],
   "note": "Sender without failures; set-user-id bits from the peer are kept even without -p (C65_setuid)."
  },
  {
   "property": "C66",
   "status": "proved",
   "theorems": [
    "Verif.Scp.C66_expand",
    "Verif.Scp.C66_restricts",
    "Verif.Scp.C66_accepted",
    "Verif.Scp.C66_trailing_comma"
   ],
   "note": "Exact meaning for brackets-free, escape-free requests; non-emptiness and termination for all."
  },
  {
   "property": "C47",
   "status": "proved",
   "theorems": [
    "Verif.Sig.C47_determined",
    "Verif.Sig.C47_separate",
    "Verif.Sig.C47_verify",
    "Verif.Sig.C47_one_namespace",
    "Verif.Sig.C47_holder",
    "Verif.Sig.C47_sign_verify",
    "Verif.Sig.C47_dearmor",
    "Verif.Sig.C47_armor"
   ],
   "note": "Signing, verifying and the text form; digest and signature scheme are parameters. Version 0, any reserved field and a NUL after names are accepted."
  },
  {
   "property": "C67",
   "status": "proved",
   "theorems": [
    "Verif.Sig.C67_options",
    "Verif.Sig.C67_allowed",
    "Verif.Sig.C67_signature",
    "Verif.Sig.C67_find",
    "Verif.Sig.C67_match",
    "Verif.Sig.C67_find_negated"
   ],
   "note": "Key parsing and absolute times are parameters. find-principals ignores negation of patterns for certificates (C67_find_negated)."
  },
  {
   "property": "C48",
   "status": "proved",
   "theorems": [
    "Verif.PrivKey.C48_parse",
    "Verif.PrivKey.C48_roundtrip",
    "Verif.PrivKey.C48_check",
    "Verif.PrivKey.C48_padding",
    "Verif.PrivKey.C48_tag",
    "Verif.PrivKey.C48_needs_passphrase",
    "Verif.PrivKey.C48_public",
    "Verif.PrivKey.C48_public_exact",
    "Verif.PrivKey.C48_ed_public",
    "Verif.PrivKey.C48_ed25519",
    "Verif.PrivKey.C48_halves_false"
   ],
   "note": "The OpenSSH format. Ciphers, bcrypt_pbkdf and the encodings of keys are parameters; for Ed25519 the encoding is modelled and the round trip has no assumption about it. The second copy of the public key inside an Ed25519 private half is not compared with the first (C48_halves_false)."
  },
  {
   "property": "C34",
   "status": "proved",
   "theorems": [
    "Verif.Sftp.C34_fresh",
    "Verif.Sftp.C34_object",
    "Verif.Sftp.C34_dead",
    "Verif.Sftp.C34_close",
    "Verif.Sftp.C34_accepted"
   ],
   "note": "All histories of messages with any answers of the system; what a string stands for is defined by the open and close exchanges the client saw. Handle indices from 2^31 count as negative, as in C."
  },
  {
   "property": "C35",
   "status": "proved",
   "theorems": [
    "Verif.Sftp.C35_readonly",
    "Verif.Sftp.C35_lists",
    "Verif.Sftp.C35_only",
    "Verif.Sftp.C35_announced"
   ],
   "note": "The lists are exact names, end at an empty name and hold at most forty; the read-only claim covers every call made by any message, also one that ends the server."
  },
  {
   "property": "C36",
   "status": "partial",
   "theorems": [
    "Verif.Sftp.C36_in_order",
    "Verif.Sftp.C36_end",
    "Verif.Sftp.C36_drained",
    "Verif.Sftp.C36_same",
    "Verif.Sftp.C36_overrun_false",
    "Verif.Sftp.C36_waiting"
   ],
   "note": "Holds for what is handled and answered. False for the message that ends the server: one that is shorter than its contents is carried out first if what follows has arrived (C36_overrun_false). C36_waiting: after a message without an answer the next one may wait although it is there."
  },
  {
   "property": "C68",
   "status": "proved",
   "theorems": [
    "Verif.Sftp.C68_one_answer",
    "Verif.Sftp.C68_wire",
    "Verif.Sftp.C68_id",
    "Verif.Sftp.C68_answer"
   ],
   "note": ""
  },
  {
   "property": "C69",
   "status": "partial",
   "theorems": [
    "Verif.Sftp.C69_one_call",
    "Verif.Sftp.C69_errors",
    "Verif.Sftp.C69_setstat",
    "Verif.Sftp.C69_write",
    "Verif.Sftp.C69_read",
    "Verif.Sftp.C69_rename",
    "Verif.Sftp.C69_copy_to_end",
    "Verif.Sftp.C69_copy_length_partial",
    "Verif.Sftp.C69_copy_false"
   ],
   "note": "False for copy-data with a length: a failed last chunk is answered with success (C69_copy_false, sftp-server.c:1664 and 1690). Calls are assumed to fail with a non-zero error number."
  },
  {
   "property": "C70",
   "status": "proved",
   "theorems": [
    "Verif.Sftp.C70_attributes",
    "Verif.Sftp.C70_exact"
   ],
   "note": "Extended attributes are skipped when read and cannot be written."
  },
  {
   "property": "C37",
   "status": "proved",
   "theorems": [
    "Verif.Sftp.Client.C37_download",
    "Verif.Sftp.Client.C37_resume",
    "Verif.Sftp.Client.C37_request",
    "Verif.Sftp.Client.C37_server",
    "Verif.Sftp.Client.C37_truncate_false"
   ],
   "note": "Servers that answer truthfully, in any order and amounts; fewer than 2^32 requests, offsets unbounded. The server model meets the assumption (C37_server). An in-place download whose final truncation fails still reports success (C37_truncate_false); the theorem assumes it works."
  },
  {
   "property": "C71",
   "status": "partial",
   "theorems": [
    "Verif.Sftp.Client.C71_prefix_partial",
    "Verif.Sftp.Client.C71_prefix_false"
   ],
   "note": "Proved if at most one local write fails and the final truncation works. False otherwise: after two failing writes the file may be cut beyond a hole (C71_prefix_false, sftp-client.c:1753-1773)."
  },
  {
   "property": "C72",
   "status": "partial",
   "theorems": [
    "Verif.Sftp.Client.C72_upload_partial",
    "Verif.Sftp.Client.C72_effect",
    "Verif.Sftp.Client.C72_refusal_lost",
    "Verif.Sftp.Client.C72_interrupt_success",
    "Verif.Sftp.Client.C72_cut",
    "Verif.Sftp.Client.C72_refused_kept"
   ],
   "note": "Proved: the writes tile the file, each is acknowledged once, the last one with success; all of them, if refusals stick. False in general: a refused write followed by an accepted one is forgotten (C72_refusal_lost), and an interrupted upload reports success (C72_interrupt_success)."
  },
  {
   "property": "C73",
   "status": "proved",
   "theorems": [
    "Verif.Sftp.Client.C73_confined",
    "Verif.Sftp.Client.C73_file",
    "Verif.Sftp.Client.C73_links"
   ],
   "note": "Names only; links already present are followed by the system. A file named `..` is tried as a file in its directory."
  },
  {
   "property": "C45",
   "status": "partial",
   "theorems": [
    "Verif.Conf.C45_follows",
    "Verif.Conf.C45_first",
    "Verif.Conf.C45_way",
    "Verif.Conf.C45_lists",
    "Verif.Conf.C45_kept",
    "Verif.Conf.C45_refused",
    "Verif.Conf.C45_choice",
    "Verif.Conf.C45_count",
    "Verif.Conf.C45_time",
    "Verif.Conf.C45_word",
    "Verif.Conf.C45_command",
    "Verif.Conf.C45_file",
    "Verif.Conf.C45_hosts",
    "Verif.Conf.C45_one_word",
    "Verif.Conf.C45_hosts_iff",
    "Verif.Conf.C45_unknown",
    "Verif.Conf.C45_sendenv",
    "Verif.Conf.C45_none_false",
    "Verif.Conf.C45_facility_false",
    "Verif.Conf.C45_mask_false",
    "Verif.Conf.C45_agent_false"
   ],
   "note": "Client configuration: for every option but SyslogFacility, StreamLocalBindMask and the way to the server (ProxyCommand/ProxyJump, which are one first-wins option) the value is the first that applies, command line before user file before system file. False as stated in four ways, with witnesses: a time of \"none\" counts as not set, SyslogFacility and StreamLocalBindMask count in blocks that do not apply (the last mask wins), and a later ForwardAgent line can still name the socket. The server is C77."
  },
  {
   "property": "C74",
   "status": "proved",
   "theorems": [
    "Verif.Conf.C74_host"
   ],
   "note": ""
  },
  {
   "property": "C75",
   "status": "proved",
   "theorems": [
    "Verif.Conf.C75_match",
    "Verif.Conf.C75_names",
    "Verif.Conf.C75_text",
    "Verif.Conf.C75_session",
    "Verif.Conf.C75_host"
   ],
   "note": "Expansion of commands and the result of running them are parameters."
  },
  {
   "property": "C76",
   "status": "partial",
   "theorems": [
    "Verif.Conf.C76_block_kept",
    "Verif.Conf.C76_inactive_partial",
    "Verif.Conf.C76_inactive_false"
   ],
   "note": "Holds for all options but SyslogFacility and StreamLocalBindMask (witness); Match exec commands inside such a file are run (witness)."
  },
  {
   "property": "C77",
   "status": "partial",
   "theorems": [
    "Verif.SrvConf.C77_read",
    "Verif.SrvConf.C77_number",
    "Verif.SrvConf.C77_last",
    "Verif.SrvConf.C77_text_partial",
    "Verif.SrvConf.C77_list_partial",
    "Verif.SrvConf.C77_growing",
    "Verif.SrvConf.C77_refused",
    "Verif.SrvConf.C77_blocks",
    "Verif.SrvConf.C77_manual",
    "Verif.SrvConf.C77_choice",
    "Verif.SrvConf.C77_count",
    "Verif.SrvConf.C77_time",
    "Verif.SrvConf.C77_file",
    "Verif.SrvConf.C77_word",
    "Verif.SrvConf.C77_names",
    "Verif.SrvConf.C77_command",
    "Verif.SrvConf.C77_none_false",
    "Verif.SrvConf.C77_timeout_none_false",
    "Verif.SrvConf.C77_netblock_false",
    "Verif.SrvConf.C77_penalties_false",
    "Verif.SrvConf.C77_unused_false"
   ],
   "note": "Server configuration. False as stated, with witnesses: \"none\" in a matching block is taken literally (except for ForceCommand and ChrootDirectory), PerSourceNetBlockSize with one number uses an uninitialised variable, penalties turned off are turned on by a later line, UnusedConnectionTimeout none overrides; MaxStartups, IPQoS, StreamLocalBindMask, FingerprintHash and PerSourceNetBlockSize use the last value (C77_last)."
  },
  {
   "property": "C78",
   "status": "proved",
   "theorems": [
    "Verif.SrvConf.C78_match",
    "Verif.SrvConf.C78_start"
   ],
   "note": "Group membership, release name and address parsing are parameters."
  },
  {
   "property": "C79",
   "status": "proved",
   "theorems": [
    "Verif.SrvConf.C79_off",
    "Verif.SrvConf.C79_reads",
    "Verif.SrvConf.C79_block_kept"
   ],
   "note": "What a glob pattern stands for is the same in both readings."
  },
  {
   "property": "C80",
   "status": "partial",
   "theorems": [
    "Verif.SrvConf.C80_exact",
    "Verif.SrvConf.C80_partial",
    "Verif.SrvConf.C80_first",
    "Verif.SrvConf.C80_lost_false",
    "Verif.SrvConf.C80_fault_false"
   ],
   "note": "Exactly what happens is proved (C80_exact). False as stated: a block that defines a subsystem removes the global ones it does not define, and one that defines more than there are globally makes the server read and free beyond an array (witnesses)."
  },
  {
   "property": "C81",
   "status": "proved",
   "theorems": [
    "Verif.HostKey.C81_accept",
    "Verif.HostKey.C81_strict",
    "Verif.HostKey.C81_strict_iff",
    "Verif.HostKey.C81_revoked",
    "Verif.HostKey.C81_revoked_authority",
    "Verif.HostKey.C81_changed",
    "Verif.HostKey.C81_unsafe",
    "Verif.HostKey.C81_revocation_file",
    "Verif.HostKey.C81_verify",
    "Verif.HostKey.C81_address_revoked_false",
    "Verif.HostKey.C81_port_revoked_false"
   ],
   "note": "Speaks of the name connected to. Witnesses: a key revoked only for the address, or for the bare name when another port is used, is not treated as revoked. Reading of the files, KnownHostsCommand, certificate checks and DNS answers are parameters."
  },
  {
   "property": "C82",
   "status": "partial",
   "theorems": [
    "Verif.HostKey.C82_adds",
    "Verif.HostKey.C82_strict_adds",
    "Verif.HostKey.C82_weaker",
    "Verif.HostKey.C82_update",
    "Verif.HostKey.C82_question",
    "Verif.HostKey.C82_address",
    "Verif.HostKey.C82_certificate_skips_address",
    "Verif.HostKey.C82_recorded_and_refused",
    "Verif.HostKey.C82_null_pointer_false"
   ],
   "note": "The last clause is false if the server offers a certificate of an unknown authority (witness), and is proved for plain keys. Also shown: a key is recorded and the connection then refused, and a changed key that is revoked for the address leads to a null pointer."
  },
  {
   "property": "C83",
   "status": "partial",
   "theorems": [
    "Verif.HostKey.Update.C83_when",
    "Verif.HostKey.Update.C83_asked",
    "Verif.HostKey.Update.C83_listed",
    "Verif.HostKey.Update.C83_kept",
    "Verif.HostKey.Update.C83_first_missing_false",
    "Verif.HostKey.Update.C83_algorithms_false",
    "Verif.HostKey.Update.C83_address_false"
   ],
   "note": "Proved, for a first file that exists. Otherwise false: the keys are removed from the other files and written nowhere (witness). Also shown: a key the server still announces is removed if its algorithm is not accepted now, and a key listed only for the address is listed for the name without proof."
  },
  {
   "property": "C52",
   "status": "proved",
   "theorems": [
    "Verif.Addr.C52_range",
    "Verif.Addr.C52_name"
   ],
   "note": "Parsing and printing of addresses are parameters; printing is assumed to work for every address."
  },
  {
   "property": "C84",
   "status": "proved",
   "theorems": [
    "Verif.Exch.C84_gen_rfc",
    "Verif.Exch.C84_gex_rfc",
    "Verif.Exch.C84_gen_injective",
    "Verif.Exch.C84_gex_injective",
    "Verif.Exch.C84_numbers"
   ],
   "note": "Group exchange: bounds other than 2^32-1, which the code leaves out of the hash."
  },
  {
   "property": "C85",
   "status": "proved",
   "theorems": [
    "Verif.Exch.C85_strict",
    "Verif.Exch.C85_marker",
    "Verif.Exch.C85_unexpected"
   ],
   "note": "Primitives are parameters."
  },
  {
   "property": "C86",
   "status": "proved",
   "theorems": [
    "Verif.Exch.C86_records",
    "Verif.Exch.C86_keys",
    "Verif.Exch.C86_session",
    "Verif.Exch.C86_client",
    "Verif.Exch.C86_client_gex",
    "Verif.Exch.C86_agree"
   ],
   "note": "Primitives are parameters; unforgeability of signatures and absence of hash collisions are hypotheses of C86_agree, as is that packets have at most 256 KiB. The digest output is not empty."
  },
  {
   "property": "C87",
   "status": "partial",
   "theorems": [
    "Verif.Dh.C87_choice_partial",
    "Verif.Dh.C87_refused",
    "Verif.Dh.C87_any",
    "Verif.Dh.C87_exact",
    "Verif.Dh.C87_ascending",
    "Verif.Dh.C87_fallback_partial",
    "Verif.Dh.C87_fallback_false",
    "Verif.Dh.C87_exact_false",
    "Verif.Dh.C87_estimate",
    "Verif.Dh.C87_wish",
    "Verif.Dh.C87_line",
    "Verif.Dh.C87_line_used",
    "Verif.Dh.C87_hex",
    "Verif.Dh.C87_public",
    "Verif.Dh.C87_private"
   ],
   "note": "Two clauses are false (witnesses): a fixed group, used if the file cannot be read, may exceed what the client accepts, and an exact match loses to a larger group standing before it in the file. Proved for files in ascending order; the rest holds for every file."
  },
  {
   "property": "C88",
   "status": "partial",
   "theorems": [
    "Verif.Banner.C88_read",
    "Verif.Banner.C88_accept",
    "Verif.Banner.C88_only",
    "Verif.Banner.C88_buffer",
    "Verif.Banner.C88_both",
    "Verif.Banner.C88_recent",
    "Verif.Banner.C88_kex",
    "Verif.Banner.C88_overflow_false"
   ],
   "note": "One clause is false (witness): version numbers are cut to 32 bits, so 4294967298.0 passes for 2.0; signs and blanks before the numbers pass too. For numbers below 2^31 written in digits acceptance is characterised exactly (C88_accept)."
  },
  {
   "property": "C89",
   "status": "partial",
   "theorems": [
    "Verif.Curve25519.C89_value",
    "Verif.Curve25519.C89_rfc_partial",
    "Verif.Curve25519.C89_canonical",
    "Verif.Curve25519.C89_point",
    "Verif.Curve25519.C89_point_exists",
    "Verif.Curve25519.C89_commute",
    "Verif.Curve25519.C89_agree",
    "Verif.Curve25519.C89_refused",
    "Verif.Curve25519.C89_small_order",
    "Verif.Curve25519.C89_secret",
    "Verif.Curve25519.C89_mask_false"
   ],
   "note": "Everything stated is proved; called partial because RFC 7748 also asks that the top bit of the point be ignored, which the code does not do (witness)."
  },
  {
   "property": "C90",
   "status": "partial",
   "theorems": [
    "Verif.PubKey.C90_plain",
    "Verif.PubKey.C90_certificate",
    "Verif.PubKey.C90_signed",
    "Verif.PubKey.C90_kept",
    "Verif.PubKey.C90_plain_roundtrip",
    "Verif.PubKey.C90_issued",
    "Verif.PubKey.C90_canonical_false"
   ],
   "note": "The last sentence is false (witness): a key has several accepted encodings. The rest is proved."
  },
  {
   "property": "C91",
   "status": "partial",
   "theorems": [
    "Verif.PubKey.C91_verify",
    "Verif.PubKey.C91_token",
    "Verif.PubKey.C91_challenge",
    "Verif.PubKey.C91_sigtype",
    "Verif.PubKey.C91_named",
    "Verif.PubKey.C91_both",
    "Verif.PubKey.C91_rsa",
    "Verif.PubKey.C91_algorithm_false"
   ],
   "note": "The last sentence is false unless the type of the signature is checked as well (witness); it is proved for RSA keys and for callers that check. Primitives are parameters."
  },
  {
   "property": "C92",
   "status": "proved",
   "theorems": [
    "Verif.Exch.C92_received",
    "Verif.Exch.C92_limit",
    "Verif.Exch.C92_server_to_client",
    "Verif.Exch.C92_client_to_server"
   ],
   "note": ""
  },
  {
   "property": "C93",
   "status": "partial",
   "theorems": [
    "Verif.Dyn.C93_target",
    "Verif.Dyn.C93_refused",
    "Verif.Dyn.C93_pieces",
    "Verif.Dyn.C93_mixed_false",
    "Verif.Dyn.C93_nul_false"
   ],
   "note": "The last sentence is false (witnesses): SOCKS4 after the SOCKS5 greeting is granted and names are cut at a NUL. The rest is proved, with these two peculiarities part of the description."
  },
  {
   "property": "C94",
   "status": "proved",
   "theorems": [
    "Verif.Dyn.C94_passed",
    "Verif.Dyn.C94_refused",
    "Verif.Dyn.C94_pieces",
    "Verif.Dyn.C94_decided",
    "Verif.Dyn.C94_late",
    "Verif.Dyn.C94_secret"
   ],
   "note": ""
  },
  {
   "property": "C95",
   "status": "proved",
   "theorems": [
    "Verif.UserKey.C95_only",
    "Verif.UserKey.C95_every",
    "Verif.UserKey.C95_order",
    "Verif.UserKey.C95_strict"
   ],
   "note": ""
  },
  {
   "property": "C96",
   "status": "proved",
   "theorems": [
    "Verif.UserKey.C96_trusted",
    "Verif.UserKey.C96_nobody",
    "Verif.UserKey.C96_opened"
   ],
   "note": ""
  },
  {
   "property": "C97",
   "status": "proved",
   "theorems": [
    "Verif.UserKey.C97_accepted",
    "Verif.UserKey.C97_query",
    "Verif.UserKey.C97_binding"
   ],
   "note": "User and style are determined jointly, as text joined by a colon."
  },
  {
   "property": "C98",
   "status": "partial",
   "theorems": [
    "Verif.HostBased.C98_accepted",
    "Verif.HostBased.C98_allowed",
    "Verif.HostBased.C98_binding",
    "Verif.HostBased.Examples.C98_trailing",
    "Verif.HostBased.Examples.C98_critical_false",
    "Verif.HostBased.Examples.C98_second_false"
   ],
   "note": "The last sentence is false (witnesses); the rest is proved, provided files that can be opened are found by stat."
  },
  {
   "property": "C99",
   "status": "partial",
   "theorems": [
    "Verif.HostBased.C99_trusted",
    "Verif.HostBased.C99_lines",
    "Verif.HostBased.Examples.C99_comment_false"
   ],
   "note": "Comments grant nothing only if lines have at most 1022 bytes (witness, C99_lines); the rest is proved, provided files that can be opened are found by stat."
  },
  {
   "property": "C100",
   "status": "proved",
   "theorems": [
    "Verif.HostBased.C100_valid",
    "Verif.HostBased.C100_signs",
    "Verif.HostBased.C100_honest"
   ],
   "note": ""
  },
  {
   "property": "C101",
   "status": "proved",
   "theorems": [
    "Verif.Show.C101_shown",
    "Verif.Show.C101_clean",
    "Verif.Show.C101_controls",
    "Verif.Show.C101_printed",
    "Verif.Show.C101_ambiguous"
   ],
   "note": "For locales that are Sane; sizes up to INT_MAX."
  },
  {
   "property": "C102",
   "status": "partial",
   "theorems": [
    "Verif.Show.C102_fits",
    "Verif.Show.C102_result",
    "Verif.Show.C102_log",
    "Verif.Show.C102_whole",
    "Verif.Show.C102_injective",
    "Verif.Show.C102_stderr",
    "Verif.Show.C102_one",
    "Verif.Show.C102_lines"
   ],
   "note": "The result is not the whole length for a buffer of one byte (C102_one); the rest is proved."
  },
  {
   "property": "C103",
   "status": "proved",
   "theorems": [
    "Verif.Session.C103_step",
    "Verif.Session.C103_once",
    "Verif.Session.C103_forced",
    "Verif.Session.C103_signals",
    "Verif.Session.C103_permits",
    "Verif.Session.C103_launched",
    "Verif.Session.C103_tab",
    "Verif.Session.C103_stale"
   ],
   "note": "Whether processes can be started is a parameter. C103_step is about sessions in which no subsystem failed to start (C103_stale shows why)."
  },
  {
   "property": "C104",
   "status": "proved",
   "theorems": [
    "Verif.Session.C104_last",
    "Verif.Session.C104_room",
    "Verif.Session.C104_connection",
    "Verif.Session.C104_client",
    "Verif.Session.C104_user",
    "Verif.Session.C104_keyVar",
    "Verif.Session.C104_line",
    "Verif.Session.C104_pam",
    "Verif.Session.C104_lines",
    "Verif.Session.C104_account",
    "Verif.Session.C104_original_false"
   ],
   "note": ""
  },
  {
   "property": "C105",
   "status": "proved",
   "theorems": [
    "Verif.Session.C105_chroot",
    "Verif.Session.C105_xauth",
    "Verif.Session.C105_rc"
   ],
   "note": "C105_xauth assumes that the name of the host itself has no blanks or quotes."
  },
  {
   "property": "C106",
   "status": "partial",
   "theorems": [
    "Verif.CliAuth.C106_first",
    "Verif.CliAuth.C106_progress",
    "Verif.CliAuth.C106_gives_up",
    "Verif.CliAuth.C106_given_up",
    "Verif.CliAuth.C106_attempts",
    "Verif.CliAuth.C106_batch_partial",
    "Verif.CliAuth.C106_requests",
    "Verif.CliAuth.C106_preferences",
    "Verif.CliAuth.C106_batch_original_false"
   ],
   "note": "Partial: batch mode does ask for the PIN of a security key. The rest is proved as stated."
  },
  {
   "property": "C107",
   "status": "proved",
   "theorems": [
    "Verif.CliAuth.C107_listed",
    "Verif.CliAuth.C107_offered",
    "Verif.CliAuth.C107_identities_only",
    "Verif.CliAuth.C107_once"
   ],
   "note": "Contents of files and agent are parameters."
  },
  {
   "property": "C108",
   "status": "partial",
   "theorems": [
    "Verif.CliAuth.C108_signs_partial",
    "Verif.CliAuth.C108_sent",
    "Verif.CliAuth.C108_agrees",
    "Verif.CliAuth.C108_crash_partial",
    "Verif.CliAuth.C108_signs_original_false",
    "Verif.CliAuth.C108_crash_original_false"
   ],
   "note": "Partial because it is not so in the code for a certificate whose private key is known by its file name only; proved for all others."
  },
  {
   "property": "C109",
   "status": "proved",
   "theorems": [
    "Verif.CliAuth.C109_answers",
    "Verif.CliAuth.C109_success",
    "Verif.CliAuth.C109_order",
    "Verif.CliAuth.C109_unexpected",
    "Verif.CliAuth.C109_questions"
   ],
   "note": ""
  },
  {
   "property": "C110",
   "status": "proved",
   "theorems": [
    "Verif.Sandbox.C110_exact",
    "Verif.Sandbox.C110_others",
    "Verif.Sandbox.C110_no_exec",
    "Verif.Sandbox.C110_futex_time64",
    "Verif.Sandbox.C110_accepted",
    "Verif.Sandbox.C110_entered",
    "Verif.Sandbox.C110_without"
   ],
   "note": "Trusted: the semantics of the kernel's filter machine."
  },
  {
   "property": "C111",
   "status": "proved",
   "theorems": [
    "Verif.Uid.C111_permanent",
    "Verif.Uid.C111_forever",
    "Verif.Uid.C111_verified",
    "Verif.Uid.C111_effective",
    "Verif.Uid.C111_possible",
    "Verif.Uid.C111_history",
    "Verif.Uid.C111_round",
    "Verif.Uid.C111_unprivileged"
   ],
   "note": "Trusted: the semantics of the system calls of Linux. Nested use is excluded by the documentation of the function; C111_nested shows what happens then."
  },
  {
   "property": "C112",
   "status": "partial",
   "theorems": [
    "Verif.Loop.C112_entitled",
    "Verif.Loop.C112_served",
    "Verif.Loop.C112_answered",
    "Verif.Loop.C112_outcome",
    "Verif.Loop.C112_success",
    "Verif.Loop.C112_goes_on",
    "Verif.Loop.C112_granted",
    "Verif.Loop.C112_grants",
    "Verif.Loop.C112_global_answer",
    "Verif.Loop.C112_listen_answer",
    "Verif.Loop.C112_no_more_noted",
    "Verif.Loop.C112_no_more",
    "Verif.Loop.C112_connections",
    "Verif.Loop.C112_listeners",
    "Verif.Loop.C112_request",
    "Verif.Loop.C112_path_partial",
    "Verif.Loop.C112_path_original_false",
    "Verif.Loop.C112_disable_partial",
    "Verif.Loop.C112_disable_original_false"
   ],
   "note": "False of the code: DisableForwarding does not stop tunnels, and a path of 108 bytes is cut. All else is proved."
  },
  {
   "property": "C113",
   "status": "partial",
   "theorems": [
    "Verif.Loop.C113_invited",
    "Verif.Loop.C113_served",
    "Verif.Loop.C113_forwarded",
    "Verif.Loop.C113_answered",
    "Verif.Loop.C113_outcome",
    "Verif.Loop.C113_goes_on",
    "Verif.Loop.C113_global",
    "Verif.Loop.C113_path_partial"
   ],
   "note": "False of the code for a forwarding to a path of 108 bytes (C112_path_original_false). All else is proved."
  },
  {
   "property": "C114",
   "status": "partial",
   "theorems": [
    "Verif.Loop.C114_pieces",
    "Verif.Loop.C114_end",
    "Verif.Loop.C114_recognised",
    "Verif.Loop.C114_runs",
    "Verif.Loop.C114_plain",
    "Verif.Loop.C114_other",
    "Verif.Loop.C114_shared",
    "Verif.Loop.C114_cmdline",
    "Verif.Loop.C114_typable",
    "Verif.Loop.C114_twice_partial",
    "Verif.Loop.C114_twice_original_false",
    "Verif.Loop.C114_separate_partial",
    "Verif.Loop.C114_separate_original_false"
   ],
   "note": "False of the code: sessions that share a connection influence each other, and an escape character that is a command cannot be sent by typing it twice. All else is proved."
  },
  {
   "property": "C115",
   "status": "proved",
   "theorems": [
    "Verif.Loop.C115_fifo",
    "Verif.Loop.C115_client_alive",
    "Verif.Loop.C115_server_alive"
   ],
   "note": "Without overflow of the counters."
  },
  {
   "property": "C116",
   "status": "proved",
   "theorems": [
    "Verif.Loop.C116_setup",
    "Verif.Loop.C116_only",
    "Verif.Loop.C116_run"
   ],
   "note": ""
  },
  {
   "property": "C117",
   "status": "proved",
   "theorems": [
    "Verif.Dns.C117_flags",
    "Verif.Dns.C117_other",
    "Verif.Dns.C117_accepted",
    "Verif.Dns.C117_warned",
    "Verif.Dns.C117_noted",
    "Verif.Dns.C117_connected",
    "Verif.Dns.C117_worthless",
    "Verif.Dns.C117_silenced",
    "Verif.Dns.C117_sk"
   ],
   "note": "Digests are parameters. That a record with an unknown digest silences the warning is part of the statement (all understood); witnesses are given."
  },
  {
   "property": "C118",
   "status": "proved",
   "theorems": [
    "Verif.Dns.C118_printed",
    "Verif.Dns.C118_other",
    "Verif.Dns.C118_accepted",
    "Verif.Dns.C118_others",
    "Verif.Dns.C118_complete"
   ],
   "note": "Fingerprints of one digest have the same length for all keys (hypothesis of C118_others)."
  },
  {
   "property": "C119",
   "status": "proved",
   "theorems": [
    "Verif.Dns.C119_read",
    "Verif.Dns.C119_inside",
    "Verif.Dns.C119_records",
    "Verif.Dns.C119_asked",
    "Verif.Dns.C119_null",
    "Verif.Dns.C119_null_case",
    "Verif.Dns.C119_other_type"
   ],
   "note": "The null pointer for a message without answers is characterised exactly by C119_null; res_query of the C library excludes such messages."
  },
  {
   "property": "C120",
   "status": "proved",
   "theorems": [
    "Verif.Target.C120_name",
    "Verif.Target.C120_safe",
    "Verif.Target.C120_possible",
    "Verif.Target.C120_off",
    "Verif.Target.C120_proxied",
    "Verif.Target.C120_no_fallback"
   ],
   "note": "The resolver (getaddrinfo, getnameinfo) is a parameter."
  },
  {
   "property": "C121",
   "status": "partial",
   "theorems": [
    "Verif.Target.C121_destination",
    "Verif.Target.C121_hop",
    "Verif.Target.C121_order_partial",
    "Verif.Target.C121_order_false"
   ],
   "note": "Parsing is characterised completely. The order of hops is proved without blanks, comments and a first hop called none; it is false with blanks or comments (C121_order_false)."
  },
  {
   "property": "C122",
   "status": "partial",
   "theorems": [
    "Verif.Target.C122_host",
    "Verif.Target.C122_alias",
    "Verif.Target.C122_target",
    "Verif.Target.C122_template",
    "Verif.Target.C122_user_partial",
    "Verif.Target.C122_user_false",
    "Verif.Target.C122_jump_partial",
    "Verif.Target.C122_jump_false",
    "Verif.Target.C122_jump_words"
   ],
   "note": "Proved for hosts of the command line, canonical names and aliases. False for user names (new line) and jump hosts: witnesses."
  },
  {
   "property": "C123",
   "status": "partial",
   "theorems": [
    "Verif.Mux.C123_answers",
    "Verif.Mux.C123_greeting",
    "Verif.Mux.C123_malformed",
    "Verif.Mux.C123_unknown",
    "Verif.Mux.C123_waits",
    "Verif.Mux.C123_alive",
    "Verif.Mux.C123_survives_partial",
    "Verif.Mux.C123_survives_original_false",
    "Verif.Mux.C123_undefined",
    "Verif.Mux.C123_proxy",
    "Verif.Mux.C123_stopped"
   ],
   "note": "All but one clause. That no packet ends the program is false (witnesses); C123_survives_partial names all that do."
  },
  {
   "property": "C124",
   "status": "partial",
   "theorems": [
    "Verif.Mux.C124_asked_partial",
    "Verif.Mux.C124_quiet",
    "Verif.Mux.C124_refused",
    "Verif.Mux.C124_asked_original_false",
    "Verif.Mux.C124_unasked_close",
    "Verif.Mux.C124_dynamic_fixed"
   ],
   "note": "Proved but for proxies and closing of forwardings, for which no question is asked, and with the text of questions as it is; witnesses."
  },
  {
   "property": "C125",
   "status": "proved",
   "theorems": [
    "Verif.Mux.C125_permitted",
    "Verif.Mux.C125_single",
    "Verif.Mux.C125_opened",
    "Verif.Mux.C125_confirmed",
    "Verif.Mux.C125_stdio_opened",
    "Verif.Mux.C125_stdio_confirmed"
   ],
   "note": ""
  },
  {
   "property": "C126",
   "status": "partial",
   "theorems": [
    "Verif.Mux.C126_forward_sent",
    "Verif.Mux.C126_session_sent",
    "Verif.Mux.C126_own",
    "Verif.Mux.C126_forward_done",
    "Verif.Mux.C126_exit",
    "Verif.Mux.C126_session_exit",
    "Verif.Mux.C126_commands_partial",
    "Verif.Mux.C126_all",
    "Verif.Mux.C126_commands_original_false",
    "Verif.Mux.C126_stdio_lost",
    "Verif.Mux.C126_command_ignored",
    "Verif.Mux.C126_wanted",
    "Verif.Mux.C126_session",
    "Verif.Mux.C126_stdio_asked",
    "Verif.Mux.C126_greeted"
   ],
   "note": "The clause on exit statuses of commands is false for cancel and -W: witnesses."
  },
  {
   "property": "C127",
   "status": "partial",
   "theorems": [
    "Verif.Mux.C127_opened_partial",
    "Verif.Mux.C127_opens",
    "Verif.Mux.C127_closed_partial",
    "Verif.Mux.C127_once",
    "Verif.Mux.C127_closed_gone",
    "Verif.Mux.C127_confirmed",
    "Verif.Mux.C127_opened_original_false",
    "Verif.Mux.C127_closed_original_false"
   ],
   "note": "What answers mean is characterised completely by the table; that something listens for an entry is false in two cases: witnesses."
  },
  {
   "property": "C128",
   "status": "proved",
   "theorems": [
    "Verif.Mux.C128_exact",
    "Verif.Mux.C128_same",
    "Verif.Mux.C128_complete"
   ],
   "note": ""
  },
  {
   "property": "C129",
   "status": "proved",
   "theorems": [
    "Verif.Proxy.C129_routed",
    "Verif.Proxy.C129_arrives",
    "Verif.Proxy.C129_stays",
    "Verif.Proxy.C129_sent",
    "Verif.Proxy.C129_refused",
    "Verif.Proxy.C129_forwarded",
    "Verif.Proxy.C129_others"
   ],
   "note": ""
  },
  {
   "property": "C130",
   "status": "partial",
   "theorems": [
    "Verif.Proxy.C130_leaves",
    "Verif.Proxy.C130_answers_partial",
    "Verif.Proxy.C130_stays_gone",
    "Verif.Proxy.C130_separate_partial",
    "Verif.Proxy.C130_defined_partial",
    "Verif.Proxy.C130_survives_partial",
    "Verif.Proxy.C130_separate_original_false",
    "Verif.Proxy.C130_defined_original_false",
    "Verif.Proxy.C130_survives_original_false",
    "Verif.Proxy.C130_answers_original_false"
   ],
   "note": "Proved for clients that leave by themselves after all their channels are confirmed, send only what is taken, and close only their own channels; all of these conditions are needed (witnesses). The clause on answers is false."
  },
  {
   "property": "C131",
   "status": "proved",
   "theorems": [
    "Verif.Pace.C131_times",
    "Verif.Pace.C131_held",
    "Verif.Pace.C131_interval"
   ],
   "note": ""
  },
  {
   "property": "C132",
   "status": "proved",
   "theorems": [
    "Verif.Pace.C132_starts",
    "Verif.Pace.C132_ends",
    "Verif.Pace.C132_lasts",
    "Verif.Pace.C132_covered",
    "Verif.Pace.C132_only",
    "Verif.Pace.C132_length"
   ],
   "note": ""
  },
  {
   "property": "C133",
   "status": "partial",
   "theorems": [
    "Verif.Pace.C133_off",
    "Verif.Pace.C133_released",
    "Verif.Pace.C133_delay_partial",
    "Verif.Pace.C133_x11_partial",
    "Verif.Pace.C133_delay_original_false",
    "Verif.Pace.C133_x11_original_false"
   ],
   "note": "The clause on X11 is false both ways, and the bound on the delay is false for a program that wakes late: witnesses. Proved: the bound for a program that does not, and that only X11 connections release output early."
  },
  {
   "property": "C134",
   "status": "proved",
   "theorems": [
    "Verif.Listen.C134_client",
    "Verif.Listen.C134_no",
    "Verif.Listen.C134_yes",
    "Verif.Listen.C134_specified"
   ],
   "note": "For a resolver that answers as POSIX says for no host, for numeric addresses and ports; clientspecified: for clients without SSH_OLD_FORWARD_ADDR."
  },
  {
   "property": "C135",
   "status": "partial",
   "theorems": [
    "Verif.Listen.C135_answer",
    "Verif.Listen.C135_cancel",
    "Verif.Listen.C135_permitted",
    "Verif.Listen.C135_undone_partial",
    "Verif.Listen.C135_local_partial",
    "Verif.Listen.Examples.C135_undone_original_false",
    "Verif.Listen.Examples.C135_local_original_false",
    "Verif.Listen.Examples.C135_address_original_false"
   ],
   "note": "Ports up to 65535 and clients without SSH_BUG_DYNAMIC_RPORT. False: cancelling larger ports; that a client closes nothing else; that the address listened on is permitted (witnesses)."
  },
  {
   "property": "C136",
   "status": "partial",
   "theorems": [
    "Verif.Listen.C136_first",
    "Verif.Listen.C136_where",
    "Verif.Listen.C136_offset",
    "Verif.Listen.C136_failed_partial",
    "Verif.Listen.Examples.C136_failed_original_false"
   ],
   "note": "The last clause is false: witness."
  },
  {
   "property": "C137",
   "status": "partial",
   "theorems": [
    "Verif.HostAlg.C137_order",
    "Verif.HostAlg.C137_same",
    "Verif.HostAlg.C137_negotiated_partial",
    "Verif.HostAlg.C137_expected_partial",
    "Verif.HostAlg.Examples.C137_negotiated_original_false",
    "Verif.HostAlg.Examples.C137_revoked_original_false"
   ],
   "note": "Proved but for the last clause, which holds if no key for the best algorithm is known and no key of the type is revoked; otherwise false: witnesses."
  },
  {
   "property": "C138",
   "status": "proved",
   "theorems": [
    "Verif.Finger.C138_hex",
    "Verif.Finger.C138_b64",
    "Verif.Finger.C138_babble",
    "Verif.Finger.C138_distinct",
    "Verif.Finger.Examples.C138_babble_algorithm"
   ],
   "note": ""
  },
  {
   "property": "C139",
   "status": "partial",
   "theorems": [
    "Verif.Finger.C139_picture",
    "Verif.Finger.C139_borders_partial",
    "Verif.Finger.C139_same_picture",
    "Verif.Finger.Examples.C139_title_cut"
   ],
   "note": "If type and size take exactly 17 letters the title is cut; C139_borders_partial leaves this case out, witness C139_title_cut. With 16 or fewer, or more than 17, the claim is proved."
  },
  {
   "property": "C140",
   "status": "proved",
   "theorems": [
    "Verif.Handover.C140_kept",
    "Verif.Handover.C140_sent",
    "Verif.Handover.C140_untrusted",
    "Verif.Handover.C140_hidden",
    "Verif.Handover.C140_copy"
   ],
   "note": ""
  },
  {
   "property": "C141",
   "status": "partial",
   "theorems": [
    "Verif.Handover.C141_continues",
    "Verif.Handover.C141_session",
    "Verif.Handover.C141_accepted",
    "Verif.Handover.C141_whole",
    "Verif.Handover.C141_safe_partial",
    "Verif.Handover.Examples.C141_safe_original_false"
   ],
   "note": "All but one clause is proved: hostile messages with sizes of blocks of 0 or above 31, or short keys for UMAC, lead to undefined behaviour, witness C141_safe_original_false; C141_safe_partial says that nothing else does."
  },
  {
   "property": "C142",
   "status": "proved",
   "theorems": [
    "Verif.Issue.C142_last",
    "Verif.Issue.C142_granted",
    "Verif.Issue.C142_permission",
    "Verif.Issue.C142_refused",
    "Verif.Issue.C142_ordered",
    "Verif.Issue.Examples.C142_clear_restriction",
    "Verif.Issue.Examples.C142_own"
   ],
   "note": ""
  },
  {
   "property": "C143",
   "status": "partial",
   "theorems": [
    "Verif.Cookie.C143_hidden",
    "Verif.Cookie.C143_screen",
    "Verif.Cookie.C143_first",
    "Verif.Cookie.C143_later",
    "Verif.Cookie.C143_reaches",
    "Verif.Cookie.C143_safe_partial",
    "Verif.Cookie.Examples.C143_safe_original_false"
   ],
   "note": "All but the last sentence is proved; that is false where a later session has a longer cookie than the first, witness C143_safe_original_false, and proved for all others, C143_safe_partial."
  },
  {
   "property": "C144",
   "status": "proved",
   "theorems": [
    "Verif.Cookie.C144_untrusted",
    "Verif.Cookie.C144_words",
    "Verif.Cookie.C144_display",
    "Verif.Cookie.C144_outlives",
    "Verif.Cookie.C144_trusted"
   ],
   "note": ""
  },
  {
   "property": "C145",
   "status": "proved",
   "theorems": [
    "Verif.Issue.C145_point",
    "Verif.Issue.C145_times",
    "Verif.Issue.C145_not_empty",
    "Verif.Issue.C145_accepted"
   ],
   "note": "Dates (parse_absolute_time) are a parameter."
  },
  {
   "property": "C146",
   "status": "partial",
   "theorems": [
    "Verif.Argv.C146_names",
    "Verif.Argv.C146_safe_partial",
    "Verif.Argv.Examples.C146_read_original_false",
    "Verif.Argv.Examples.C146_write_original_false"
   ],
   "note": "The meaning of quoted names is proved in full; memory safety fails as stated (two witnesses) and is proved for lines of up to 4095 or at least 8192 characters that do not end in a backslash."
  },
  {
   "property": "C147",
   "status": "proved",
   "theorems": [
    "Verif.Operand.C147_split",
    "Verif.Operand.C147_local",
    "Verif.Operand.C147_plain",
    "Verif.Operand.C147_brackets"
   ],
   "note": ""
  },
  {
   "property": "C148",
   "status": "proved",
   "theorems": [
    "Verif.Kdf.C148_key",
    "Verif.Kdf.C148_refused"
   ],
   "note": ""
  },
  {
   "property": "C149",
   "status": "proved",
   "theorems": [
    "Verif.Shield.C149_open",
    "Verif.Shield.C149_hidden",
    "Verif.Shield.C149_same"
   ],
   "note": ""
  },
  {
   "property": "C150",
   "status": "proved",
   "theorems": [
    "Verif.Hmac.C150_codes",
    "Verif.Hmac.C150_packet"
   ],
   "note": "One key for each state, as in all callers; Examples.C150_rekey_original_false shows what a second one would do."
  }
 ]
}