{"id": "C01", "title": "sshbuf behaves as a bounded byte queue", "statement": "Any sequence of buffer calls (put, reserve, consume, consume_end, reset, set_max_size, get, peek, poke) observes exactly the behaviour of a byte queue with a maximum size: bytes come out in the order they went in, the length never exceeds the configured maximum, no access leaves the allocation, and an operation that reports an error leaves the readable contents unchanged.", "quantifier": "all buffers reachable by any finite sequence of API calls with any arguments, and any pattern of allocation failures", "why_tests_cant": "offset, size, allocation and packing interact over arbitrary histories; tests sample a few", "anchors": ["sshbuf.c: sshbuf_new, sshbuf_allocate, sshbuf_reserve, sshbuf_consume, sshbuf_consume_end, sshbuf_maybe_pack, sshbuf_set_max_size, sshbuf_reset", "sshbuf-getput-basic.c"]}
{"id": "C02", "title": "Wire primitives round-trip and re-encode canonically", "statement": "Every integer, string and positive multi-precision integer written to a buffer is read back unchanged with the following data untouched, and whatever bytes a reader accepts are exactly the encoding of the value it returned (for integers and strings).", "quantifier": "all values, all trailing data", "why_tests_cant": "infinite value space; malformed lengths", "anchors": ["sshbuf-getput-basic.c: sshbuf_put_u32, sshbuf_get_u32, sshbuf_put_string, sshbuf_get_string, sshbuf_get_cstring, sshbuf_put_bignum2_bytes, sshbuf_get_bignum2_bytes_direct"]}
{"id": "C03", "title": "Buffer readers never consume on failure", "statement": "A typed read of a truncated, oversized or malformed item returns an error and leaves the buffer exactly as it was.", "quantifier": "all byte strings in the buffer, all readers", "why_tests_cant": "adversarial inputs are unbounded", "anchors": ["sshbuf-getput-basic.c: sshbuf_get_string_direct, sshbuf_get_cstring, sshbuf_get_bignum2_bytes_direct, sshbuf_get_stringb"]}
{"id": "C04", "title": "A derived read-only buffer never sees its parent change", "statement": "While a buffer created from (part of) another buffer is alive, no call on the parent changes the bytes the child sees and the parent's storage is not released; it is released when the last reference goes away and never twice.", "quantifier": "all interleavings of calls on a parent and any number of children", "why_tests_cant": "aliasing and lifetime over arbitrary histories", "anchors": ["sshbuf.c: sshbuf_fromb, sshbuf_set_parent, sshbuf_free, sshbuf_check_reserve", "sshbuf-getput-basic.c: sshbuf_froms"]}
{"id": "C05", "title": "Wildcard matching means what the manual says", "statement": "match_pattern accepts a string iff it can be split so that each '*' takes any (possibly empty) run, each '?' exactly one character and every other character itself.", "quantifier": "all strings and patterns", "why_tests_cant": "infinite pairs; the implementation uses a specialised search", "anchors": ["match.c: match_pattern"]}
{"id": "C06", "title": "Negated list entries always win", "statement": "For a comma separated pattern list, the result is 'negative' iff the first deciding entry is a matching negated one; a list that contains a matching negated entry never reports a positive match, and an all-negative list never matches positively.", "quantifier": "all strings and lists", "why_tests_cant": "order and negation combinations are unbounded", "anchors": ["match.c: match_pattern_list, match_hostname"]}
{"id": "C07", "title": "Algorithm selection picks the client's first mutual choice", "statement": "match_list returns the first name of the first list which also occurs in the second, and fails iff there is no common name (up to the documented list limits).", "quantifier": "all pairs of name lists", "why_tests_cant": "unbounded name lists", "anchors": ["match.c: match_list"]}
{"id": "C08", "title": "Proposal filtering keeps exactly the permitted names in order", "statement": "Filtering a name list by a pattern list removes (or keeps) exactly the names that match and preserves the order of the rest.", "quantifier": "all lists and filters", "why_tests_cant": "unbounded", "anchors": ["match.c: filter_list, match_filter_denylist, match_filter_allowlist"]}
{"id": "C09", "title": "CIDR matching compares exactly the network bits", "statement": "An address matches net/len iff they are of the same family and their leading len bits are equal, for IPv4 and IPv6; invalid prefix lengths never match.", "quantifier": "all addresses, networks and prefix lengths", "why_tests_cant": "2^128 addresses by 129 prefix lengths", "anchors": ["addr.c: addr_netmask, addr_and, addr_cmp, addr_netmatch, addr_host_is_all0s, addr_host_to_all1s"]}
{"id": "C10", "title": "Bitmap is a finite set of bit numbers", "statement": "Setting, clearing and testing bits behaves as a finite set; the byte-string form has minimal length and parsing it back yields the same set.", "quantifier": "all sequences of set/clear operations", "why_tests_cant": "growth and top-word bookkeeping over arbitrary histories", "anchors": ["bitmap.c"]}
{"id": "C11", "title": "A revoked serial stays revoked, an unrevoked one is never reported", "statement": "After any sequence of serial and serial-range revocations a certificate serial is reported revoked iff it was covered by one of them.", "quantifier": "all sequences of range insertions over 64-bit serials including 2^64-1", "why_tests_cant": "range merging over arbitrary histories and 64-bit boundary arithmetic", "anchors": ["krl.c: insert_serial_range, is_cert_revoked, is_key_revoked"]}
{"id": "C12", "title": "Writing and reading back a KRL revokes the same serials", "statement": "Serialising a set of revoked serials into list / range / bitmap sections and parsing it back revokes exactly the same serials.", "quantifier": "all sets of ranges", "why_tests_cant": "the section chooser is a cost-driven state machine over arbitrary range sets", "anchors": ["krl.c: choose_next_state, revoked_certs_generate, parse_revoked_certs"]}
{"id": "C13", "title": "Both ends of a key exchange agree on every algorithm", "statement": "Given the same pair of proposals, client and server compute the same key exchange, host key, cipher, MAC and compression choice for each direction, each choice is in both proposals, and negotiation fails iff some required pair of lists is disjoint.", "quantifier": "all pairs of proposals", "why_tests_cant": "unbounded", "anchors": ["kex.c: kex_choose_conf, choose_enc, choose_mac, choose_comp, choose_kex, choose_hostkeyalg"]}
{"id": "C14", "title": "A guessed first packet is discarded exactly when the guess was wrong", "statement": "If the peer said a guessed key exchange packet follows and either first preference differs from ours, exactly one following packet is discarded.", "quantifier": "all proposals", "why_tests_cant": "unbounded", "anchors": ["kex.c: proposals_match, kex_choose_conf", "packet.c: dispatch_skip_packets"]}
{"id": "C15", "title": "Packet sequence numbers are never reused under one key", "statement": "Between two key changes every sent (received) packet is processed with a different sequence number; without strict key exchange numbers increase by one modulo 2^32 for the whole connection, with it they restart at zero at each new-keys boundary, and wrap during the initial key exchange ends the connection.", "quantifier": "all packet histories", "why_tests_cant": "2^32 packets", "anchors": ["packet.c: ssh_packet_send2_wrapped, ssh_packet_read_poll2, ssh_packet_need_rekeying, ssh_set_newkeys"]}
{"id": "C16", "title": "Packet framing is independent of how bytes arrive", "statement": "Feeding a sender's byte stream to the receiver in any fragmentation yields exactly the sequence of payloads that was sent, in order.", "quantifier": "all payload sequences, all fragmentations, any cipher/MAC satisfying the stated laws", "why_tests_cant": "unbounded schedules", "anchors": ["packet.c: ssh_packet_send2_wrapped, ssh_packet_read_poll2, ssh_packet_process_incoming"]}
{"id": "C17", "title": "Tampered packets are never delivered", "statement": "If the authentication check of a packet fails, nothing of that packet is delivered and the connection fails (immediately or after the constant-length discard).", "quantifier": "all byte streams", "why_tests_cant": "adversarial inputs", "anchors": ["packet.c: ssh_packet_read_poll2, ssh_packet_start_discard, ssh_packet_stop_discard"]}
{"id": "C18", "title": "Data queued during re-keying is sent once, in order, afterwards", "statement": "While a key exchange is in progress only transport messages are emitted; every other packet is held and, once new keys are in place, emitted exactly once in submission order.", "quantifier": "all histories of sends and key-exchange events", "why_tests_cant": "unbounded histories", "anchors": ["packet.c: ssh_packet_send2"]}
{"id": "C19", "title": "Channel data never exceeds the peer's window", "statement": "The total data sent on a channel never exceeds the window granted by the peer, every data message is at most the peer's maximum packet size, and the receive side never accepts more than it granted.", "quantifier": "all interleavings of sends, window adjusts and reads", "why_tests_cant": "unbounded schedules", "anchors": ["channels.c: channel_output_poll_input_open, channel_input_data, channel_input_window_adjust, channel_check_window"]}
{"id": "C20", "title": "Channel shutdown is orderly", "statement": "On each channel EOF and CLOSE are each sent at most once, no data or EOF is sent after CLOSE or data after EOF, and a channel is only discarded after CLOSE was both sent and received.", "quantifier": "all event orders", "why_tests_cant": "state machine explored over unbounded schedules", "anchors": ["nchan.c"]}
{"id": "C21", "title": "A channel number identifies one live channel", "statement": "A newly allocated channel gets a number not used by any live channel and existing channels are not disturbed.", "quantifier": "all histories of channel allocation and freeing", "why_tests_cant": "unbounded histories", "anchors": ["channels.c: channel_new, channel_free, channel_by_id, channel_lookup"]}
{"id": "C22", "title": "Forwarding restrictions are enforced for every request", "statement": "A TCP forwarding destination is connected to only if it is permitted by both the user's and the administrator's permission lists.", "quantifier": "all permission sets and requests", "why_tests_cant": "unbounded", "anchors": ["channels.c: channel_connect_to_port, open_match, remote_open_match, check_rfwd_permission"]}
{"id": "C23", "title": "Authentication succeeds only through a permitted, successful method", "statement": "A session is marked authenticated only after a method attempt that returned success, for a valid user, with root-login policy satisfied and no further required methods; once it has succeeded later requests are ignored, and the connection is dropped when the failure limit is reached.", "quantifier": "all sequences of authentication requests", "why_tests_cant": "unbounded request histories", "anchors": ["auth2.c: input_userauth_request, userauth_finish"]}
{"id": "C24", "title": "All methods of some configured list must be completed", "statement": "With AuthenticationMethods configured, authentication completes iff the sequence of successful methods completes one of the configured lists in order.", "quantifier": "all configured lists and all success sequences", "why_tests_cant": "unbounded", "anchors": ["auth2.c: auth2_setup_methods_lists, auth2_update_methods_lists, remove_method, list_starts_with"]}
{"id": "C25", "title": "Merging authorisation options never widens permissions", "statement": "When options from an authorized_keys line are combined with those of a certificate, a permission is granted only if both grant it, and restrictions present in either are present in the result.", "quantifier": "all pairs of option sets", "why_tests_cant": "2^n combinations of flags with unbounded strings", "anchors": ["auth-options.c: sshauthopt_merge"]}
{"id": "C26", "title": "Certificate acceptance respects time, principal and critical options", "statement": "A certificate is accepted only if of the right type, at a time within [valid_after, valid_before), for a principal it lists, with no unknown critical option.", "quantifier": "all certificates, times, names", "why_tests_cant": "64-bit times, unbounded lists", "anchors": ["sshkey.c: sshkey_cert_check_authority", "auth-options.c: cert_option_list"]}
{"id": "C27", "title": "The privileged monitor only answers requests its state permits", "statement": "A request not enabled in the monitor's current table ends the connection; one-shot requests are served at most once; authentication succeeds only if an authentication-class request returned success.", "quantifier": "all request sequences from a compromised unprivileged process", "why_tests_cant": "adversarial, unbounded", "anchors": ["monitor.c: monitor_read, monitor_child_preauth, monitor_permit"]}
{"id": "C28", "title": "The monitor signs off a key only if that key was allowed and the signed data names this session and user", "statement": "A public-key authentication is reported successful only if the key blob is byte-identical to the one last approved, and the signed data is precisely the user authentication request for this session id and user.", "quantifier": "all request sequences and blobs", "why_tests_cant": "adversarial", "anchors": ["monitor.c: mm_answer_keyallowed, mm_answer_keyverify, monitor_valid_userblob, monitor_allowed_key"]}
{"id": "C29", "title": "Connection throttling follows MaxStartups", "statement": "No connection is dropped below the first threshold, every one is dropped at or above the last, and in between the drop percentage is the stated linear interpolation between rate and 100.", "quantifier": "all thresholds and counts", "why_tests_cant": "all integer triples", "anchors": ["sshd.c: should_drop_connection"]}
{"id": "C30", "title": "Per-source connection limits are exact", "statement": "The number of concurrently admitted unauthenticated connections from one source network never exceeds the limit, and finished connections free their slot.", "quantifier": "all histories of accepts and completions", "why_tests_cant": "unbounded histories", "anchors": ["srclimit.c: srclimit_check_allow, srclimit_done"]}
{"id": "C31", "title": "Penalties accumulate, cap and expire as documented", "statement": "A source is refused iff it has an unexpired penalty of at least the minimum; penalties accumulate up to the maximum and the tables never exceed their configured size.", "quantifier": "all histories of offences and times", "why_tests_cant": "unbounded histories", "anchors": ["srclimit.c: srclimit_penalise, srclimit_penalty_check_allow, expire_penalties"]}
{"id": "C32", "title": "A locked or constrained agent key is not usable", "statement": "While the agent is locked no key is listed or used; a key past its lifetime is never used; a key added with confirmation signs only after approval; adding and removing keys behaves as a map keyed by public key.", "quantifier": "all request histories", "why_tests_cant": "unbounded histories", "anchors": ["ssh-agent.c: process_lock_agent, process_add_identity, process_sign_request2, reaper"]}
{"id": "C33", "title": "Destination-constrained keys are only usable along permitted paths", "statement": "A destination-constrained key is listed or used over forwarded connections only if every hop and the destination is permitted by one of its constraints.", "quantifier": "all constraint lists and session bindings", "why_tests_cant": "unbounded paths", "anchors": ["ssh-agent.c: permitted_by_dest_constraints, identity_permitted, match_key_hop"]}
{"id": "C34", "title": "SFTP handles name exactly the open files", "statement": "Handle strings returned to a client are distinct while open, a request on a handle affects the object it was opened for, and a closed or never issued handle is rejected.", "quantifier": "all histories of open/close and arbitrary handle strings", "why_tests_cant": "unbounded histories", "anchors": ["sftp-server.c: handle_new, handle_from_string, handle_to_string, handle_close"]}
{"id": "C35", "title": "A read-only SFTP server performs no modification", "statement": "In read-only mode no request leads to a state-changing filesystem operation, and a request disallowed by the allow/deny lists is never executed.", "quantifier": "all requests", "why_tests_cant": "all message types and extension names with all flag words", "anchors": ["sftp-server.c: request_permitted, process, process_open"]}
{"id": "C36", "title": "SFTP message processing is independent of stream fragmentation", "statement": "Splitting the request stream at arbitrary points yields the same sequence of handled requests.", "quantifier": "all streams and fragmentations", "why_tests_cant": "unbounded schedules", "anchors": ["sftp-server.c: process, sftp_server_main"]}
{"id": "C37", "title": "An SFTP download reassembles the remote file under any reply order", "statement": "For any sizes of replies (including short reads) and any order of outstanding replies, a download that reports success has written exactly the remote file's bytes at their offsets.", "quantifier": "all files, block sizes, request counts and reply schedules", "why_tests_cant": "unbounded schedules", "anchors": ["sftp-client.c: sftp_download"]}
{"id": "C38", "title": "A revoked host key is never accepted", "statement": "If any matching known_hosts entry marks the key revoked, the key check reports revoked regardless of other entries; otherwise an exactly matching entry reports OK and a same-type entry with a different key reports changed.", "quantifier": "all entry lists and orders", "why_tests_cant": "unbounded lists", "anchors": ["hostfile.c: check_key_not_revoked, check_hostkeys_by_key_or_type"]}
{"id": "C39", "title": "Argument quoting round-trips", "statement": "Splitting the string assembled from an argument vector gives back the vector.", "quantifier": "all argument vectors", "why_tests_cant": "unbounded strings", "anchors": ["misc.c: argv_split, argv_assemble"]}
{"id": "C40", "title": "Time specifications parse exactly or are rejected", "statement": "A duration string is accepted iff it is a sequence of digits with optional unit suffixes whose total fits the integer range, and the result is that total; overflow is an error.", "quantifier": "all strings", "why_tests_cant": "unbounded, overflow boundaries", "anchors": ["misc.c: convtime, scandigits, fmt_timeframe"]}
{"id": "C41", "title": "Percent expansion is single pass and total", "statement": "Each %x is replaced by the value given for x, %% by %, everything else is copied; expansions are never re-expanded.", "quantifier": "all format strings and values", "why_tests_cant": "unbounded", "anchors": ["misc.c: vdollar_percent_expand, percent_expand"]}
{"id": "C42", "title": "Full transfers despite partial I/O", "statement": "atomicio transfers exactly n bytes in order regardless of short reads/writes and interruptions, unless the descriptor reports end of file or a permanent error, in which case the count of bytes transferred is exact.", "quantifier": "all schedules of system call results", "why_tests_cant": "unbounded schedules", "anchors": ["atomicio.c: atomicio6"]}
{"id": "C43", "title": "Poly1305 computes the specified polynomial", "statement": "The limb implementation returns the tag defined by (sum of clamped-r powers times padded blocks mod 2^130-5) + s mod 2^128.", "quantifier": "all messages and keys", "why_tests_cant": "carry bugs appear on negligible fractions of inputs", "anchors": ["poly1305.c: poly1305_auth"]}
{"id": "C44", "title": "ChaCha20 en/decryption is an exact keystream XOR", "statement": "Encryption equals XOR with the ChaCha20 keystream with a 64-bit block counter; decrypting restores the message for all lengths.", "quantifier": "all keys, nonces, lengths", "why_tests_cant": "all lengths, counter carry", "anchors": ["chacha.c: chacha_encrypt_bytes"]}
{"id": "C45", "title": "Configuration: first obtained value wins", "statement": "For each single-valued client option the value used is the first one set by a matching block; later values never override it.", "quantifier": "all configuration texts", "why_tests_cant": "unbounded", "anchors": ["readconf.c: process_config_line_depth", "servconf.c: process_server_config_line_depth, copy_set_server_options"]}
{"id": "C46", "title": "User allow/deny lists: deny wins and allow lists are exhaustive", "statement": "A user matched by DenyUsers or in a DenyGroups group is refused; if AllowUsers (AllowGroups) is configured, only matching users (members) are admitted.", "quantifier": "all lists, users, groups", "why_tests_cant": "unbounded", "anchors": ["auth.c: allowed_user", "groupaccess.c: ga_match, ga_match_pattern_list"]}
{"id": "C47", "title": "Message signatures verify only for the same namespace, hash and message", "statement": "The data verified for a file signature determines namespace, hash algorithm and message hash; a signature blob for one namespace is never accepted for another.", "quantifier": "all blobs", "why_tests_cant": "adversarial", "anchors": ["sshsig.c: sshsig_wrap_sign, sshsig_wrap_verify"]}
{"id": "C48", "title": "Private key files round-trip and padding is checked", "statement": "A key serialised to the private key format and parsed back with the same passphrase is unchanged; any wrong check bytes or padding are rejected.", "quantifier": "all keys, comments", "why_tests_cant": "unbounded", "anchors": ["sshkey.c: sshkey_private_to_blob2, private2_decrypt, private2_check_padding"]}
{"id": "C49", "title": "Terminal modes survive the wire", "statement": "Control characters encoded and decoded are unchanged; an unknown opcode never misaligns parsing of known ones below 160.", "quantifier": "all mode lists", "why_tests_cant": "unbounded", "anchors": ["ttymodes.c: ssh_tty_make_modes, ssh_tty_parse_modes"]}
{"id": "C50", "title": "scp never writes outside the target directory by name", "statement": "Whatever the peer sends, every path the receiver makes, opens or changes is the target or reached from it through received names that are not '.', '..' or empty, contain no slash and match the request; if the target is a directory it is strictly inside; without -r it is at most one level deep, and no directory is made and no mode changed by name.", "quantifier": "all byte streams from the peer and all answers of the system", "why_tests_cant": "adversarial", "anchors": ["scp.c: sink"]}
{"id": "C51", "title": "Address lists: negation wins, malformed entries are errors", "statement": "Matching an address against a comma separated list of networks and wildcard patterns scans left to right: the first malformed entry yields an error and the first negated entry covering the address yields a negative verdict; otherwise the result is positive iff some entry covers the address. The CIDR-only variant reports an error for any list containing a forbidden character.", "quantifier": "for all addresses, all lists, all numeric-address parsers", "why_tests_cant": "lists and addresses are unbounded; interactions between negation, errors and order need a proof over all lists", "anchors": ["addrmatch.c:addr_match_list", "addrmatch.c:addr_match_cidr_list", "addr.c:addr_pton_cidr"]}
{"id": "C52", "title": "Scanning a network visits each of its addresses once", "statement": "Given a network in address/length form, ssh-keyscan contacts exactly the addresses of that network, the first and the last included, each once and in increasing order, and then goes on to the next argument. Any other argument is taken as a host name.", "quantifier": "for every network of either address family and every length, and every argument text", "why_tests_cant": "Networks have up to 2^128 addresses; carries between words and the end of the address space are only met in a few of them.", "anchors": ["ssh-keyscan.c: do_host", "addr.c: addr_increment, addr_host_to_all1s, addr_cmp, addr_pton_cidr"]}
{"id": "C53", "title": "Both ends derive matching session keys as the RFC prescribes", "statement": "After one key exchange, what one end uses to send in a direction (IV, encryption key, integrity key) is what the other end uses to receive in it; each key is the RFC 4253 section 7.2 expansion with its own letter; the session identifier is the hash of the first exchange and later exchanges never change it.", "quantifier": "for all hash functions, shared secrets, exchange hashes, key lengths and numbers of exchanges", "why_tests_cant": "the hash, the secrets and the number of rekeyings are arbitrary; two implementations of the same wrong assignment would pass an end-to-end test", "anchors": ["kex.c:derive_key", "kex.c:kex_derive_keys"]}
{"id": "C54", "title": "Algorithm list settings mean what the manual says", "statement": "A setting without prefix selects, pattern by pattern, the supported names it matches, each once; '+' puts them after the default names, '^' before them, '-' removes the matching names from the default; an empty setting is the default; a negated pattern or an empty selection is an error.", "quantifier": "for all settings, all default lists of supported literal names, all supported lists", "why_tests_cant": "settings are arbitrary pattern lists; overlap, duplicates and order interact", "anchors": ["kex-names.c:kex_assemble_names", "kex-names.c:kex_names_cat", "match.c:filter_list"]}
{"id": "C55", "title": "Padding hides the length of passwords", "statement": "When 64-byte padding has been requested for a packet (as is done before a password is sent), the number of bytes on the wire depends on the payload only through the 64-byte bucket its length falls into: the encrypted part is a multiple of 64 bytes, at least four bytes are padding, and no more than one bucket is added.", "quantifier": "for all payloads, all ciphers and MACs with 8 or 16 byte blocks, all states of the connection", "why_tests_cant": "the arithmetic mixes block rounding with 8-bit wrap-around for all payload lengths", "anchors": ["packet.c:sshpkt_add_padding", "packet.c:ssh_packet_send2_wrapped", "sshconnect2.c:userauth_passwd"]}
{"id": "C56", "title": "Channel data arrives complete and in order", "statement": "On a stream channel the data sent to the peer is, in order and without gaps, what was read from the local side, and the data written to the local side is what was accepted from the peer; when EOF is sent everything read has been sent, and when the output closes normally everything accepted has been written.", "quantifier": "all channels and all sequences of reads, writes, received messages, collections and failures", "why_tests_cant": "The interleavings of partial reads, partial writes, window exhaustion, EOF and close are unbounded.", "anchors": ["channels.c: channel_handle_rfd, channel_handle_wfd, channel_output_poll_input_open, channel_input_data", "nchan.c"]}
{"id": "C57", "title": "Channel window credit is conserved", "statement": "Every byte received on a channel is eventually credited back to the peer once the application has consumed it, so a peer whose data is being consumed is never starved of window.", "quantifier": "all histories of a channel with a peer that keeps to its credit", "why_tests_cant": "Leaks of credit show only after unboundedly many bytes.", "anchors": ["channels.c: channel_check_window, channel_input_data, channel_input_extended_data, channel_handle_wfd"]}
{"id": "C58", "title": "One keyboard-interactive request gives at most one verdict per device", "statement": "However often a client names a keyboard-interactive device in its request, each device configured on the server is asked at most once per request, so naming a device many times does not multiply the guesses allowed.", "quantifier": "all device lists a client can send, all histories of requests and responses", "why_tests_cant": "The device list is attacker-chosen text of any length; the historic bug (a repeated device name giving thousands of guesses) needed a list no test contained.", "anchors": ["auth2-chall.c: kbdint_next_device, input_userauth_info_response, auth2_challenge"]}
{"id": "C59", "title": "Options in front of an authorized key mean what is written, or the line is refused", "statement": "The text in front of a key in an authorized_keys file is accepted exactly when it is a comma separated list of known options, each written as a name in any letter case, with 'no-' in front for the flags that can be negated, or as name=\"value\" with \\\" standing for a quote, and each acceptable in view of those before it. Accepted text means exactly these options in this order. An unknown option, a repeated command=, principals= or from=, or text after a closing quote refuses the whole line. For port forwarding, agent forwarding, X11 forwarding, terminals and the user rc file the last option that mentions the permission decides, 'restrict' counting against all of them. The options cover all text up to the key.", "quantifier": "for every text, every list of options and every answer of the time and port lookups", "why_tests_cant": "the option language is infinite and prefixes of names, letter case, quoting and order interact", "anchors": ["auth-options.c: sshauthopt_parse", "misc.c: opt_flag", "misc.c: opt_match", "misc.c: opt_dequote", "authfile.c: sshkey_advance_past_options"]}
{"id": "C60", "title": "Host keys sign only exchange hashes and proofs of possession for this session", "statement": "Whatever a compromised unprivileged process asks for, the privileged monitor lets a host key sign at most one value before authentication and that value has the length of a hash; after authentication it signs only values of hash length or the 'hostkeys-prove-00@openssh.com' statement for this session's identifier and that very host key. The session identifier is the single value signed before authentication and never changes.", "quantifier": "for all message sequences a child process may send, all host keys and all points in the connection, before and after authentication", "why_tests_cant": "A test sends some well-formed and malformed signing requests; the claim is about every sequence of arbitrary bytes the child could send, including requests interleaved with authentication and repeated key exchanges.", "anchors": ["monitor.c: mm_answer_sign", "monitor.c: monitor_read", "monitor.c: monitor_child_preauth", "monitor.c: monitor_child_postauth"]}
{"id": "C61", "title": "The listener's accounting of unauthenticated connections is right and never fails", "statement": "At every moment the listening daemon's count of unauthenticated connections equals the number of connections it still tracks (open pipe or process not yet waited for) and never exceeds MaxStartups, so the throttle of C29 is applied to the true number; the count of processes still receiving their configuration is right too; entries not in use are available to new connections; and no sequence of accepts, pipe events and process exits reaches one of the listener's internal 'this cannot happen' exits.", "quantifier": "for all configurations with well-formed thresholds and all sequences of accepts, failed forks, pipe reads and writes, pipe closures and process exits", "why_tests_cant": "The counters are updated in five places for events that may come in any order (exit before or after the pipe closes, login before or after configuration transfer); a test exercises a few orders only.", "anchors": ["sshd.c: child_alloc", "sshd.c: child_register", "sshd.c: child_finish", "sshd.c: child_close", "sshd.c: child_reap", "sshd.c: server_accept_loop"]}
{"id": "C62", "title": "Updating a host's known_hosts entries touches nothing else", "statement": "When a host's keys are replaced in a known_hosts file, every comment, malformed line, marked line and entry for other hosts stays byte for byte and in order; only unmarked entries for the host or address that hold none of the new keys go; afterwards the new keys, and no others, are listed unmarked for the host and its address, hashed or not.", "quantifier": "all files of newline-terminated lines, all host names, addresses and key lists", "why_tests_cant": "unbounded files; the interesting cases are combinations of name, address and hash matches", "anchors": ["hostfile.c: hostfile_replace_entries, host_delete, hostkeys_foreach_file, write_host_entry"]}
{"id": "C63", "title": "Base64 is exact and canonical", "statement": "Encoding yields the RFC 4648 text; decoding accepts exactly those texts with white space anywhere, so every byte string has one text and stray trailing bits, missing or surplus padding are refused; encode then decode, wrapped or not, restores the bytes.", "quantifier": "all byte strings, all texts, all target sizes", "why_tests_cant": "unbounded; canonicity quantifies over all pairs of texts", "anchors": ["openbsd-compat/base64.c: b64_ntop, b64_pton", "sshbuf-misc.c: sshbuf_dtob64, sshbuf_b64tod"]}
{"id": "C64", "title": "chacha20-poly1305@openssh.com opens exactly what carries the right tag", "statement": "Sealing a packet encrypts the length field under the second key and the body under the first key from block 1 and appends the Poly1305 tag, under the first 32 bytes of block 0, of everything encrypted. Opening releases bytes exactly when that tag is present, and then they are the sealed bytes; the length read in advance is the one in the opened packet; no key stream block serves both as tag key and as body key stream, nor for two packets with different sequence numbers.", "quantifier": "all keys, sequence numbers, packet contents and lengths below 2^32", "why_tests_cant": "all lengths and contents; the key stream separation is a statement about all pairs of packets", "anchors": ["cipher-chachapoly.c: chachapoly_crypt", "cipher-chachapoly.c: chachapoly_get_length", "cipher-chachapoly.c: chachapoly_new", "chacha.c: chacha_encrypt_bytes", "poly1305.c: poly1305_auth"]}
{"id": "C65", "title": "What scp sends is what scp receives", "statement": "When a tree of files and directories is sent with the old protocol to a directory and every system call succeeds, the receiver ends normally, has read exactly what was sent, and the file system afterwards is the old one with exactly that tree laid over it: contents byte for byte, modes (less the umask without -p) and times. On any system, calls failing at any time, the content read for a file is exactly the announced number of bytes, what is written is a prefix of it, and all of it unless an error is reported.", "quantifier": "all trees whose names the format can carry, all previous file systems that do not conflict in kind, all buffer sizes; for the content rule all streams and all system answers", "why_tests_cant": "all trees, contents and failure points; framing errors show only for particular lengths", "anchors": ["scp.c: source", "scp.c: rsource", "scp.c: sink", "scp.c: response"]}
{"id": "C66", "title": "Braces in a requested name mean what they say, and always restrict", "statement": "The names accepted for a request are exactly the last components of the words its (nested) braces stand for, or names matching one of them as a pattern; the expansion always ends, never yields an empty list (which would lift the restriction), and fails only for unbalanced patterns.", "quantifier": "all requests; for the exact meaning, all nested brace expressions without brackets and escapes whose groups do not end with an empty alternative", "why_tests_cant": "unbounded nesting; security depends on the list never being empty", "anchors": ["scp.c: brace_expand", "scp.c: brace_expand_one", "scp.c: find_brace", "scp.c: emit_expansion", "scp.c: sink"]}
{"id": "C67", "title": "An allowed signers file authorises exactly what its lines say", "statement": "A signing key is accepted for a principal, namespace and time exactly when some line of the file lists the principal, names that key (or, as an authority, the key that signed the certificate, which must itself be valid and list the principal), and its options permit the namespace and time; malformed or unrelated lines never change the answer.", "quantifier": "all files, keys, certificates, principals, namespaces and times", "why_tests_cant": "texts, quoting and combinations of options are unbounded", "anchors": ["sshsig.c: sshsig_check_allowed_keys, check_allowed_keys_line, parse_principals_key_and_options, sshsigopt_parse, sshsig_find_principals, sshsig_match_principals"]}
{"id": "C68", "title": "Every SFTP request is answered once, under its own number", "statement": "Each request to the SFTP server yields exactly one answer; it carries the request's number and is an error or the kind of answer the request asks for. Nothing is sent for messages of unknown types.", "quantifier": "all requests, all states the server can reach, all answers of the system", "why_tests_cant": "clients match answers to pipelined requests by number; all outcomes of all system calls", "anchors": ["sftp-server.c: process, send_msg, send_status_errmsg, send_names"]}
{"id": "C69", "title": "SFTP success means it was done", "statement": "The SFTP server answers success only if the system calls that carry out the request were made, with the arguments given, and succeeded: in full for writes, all of them for attributes, without replacing anything for renames, up to the end and completely for copies.", "quantifier": "all requests and all answers of the system", "why_tests_cant": "failures of the system at any point", "anchors": ["sftp-server.c: process_setstat, process_write, process_rename, process_extended_copy_data"]}
{"id": "C70", "title": "SFTP file attributes survive the wire", "statement": "Attributes that are encoded and decoded come back as they were, restricted to what their flags announce, and decoding leaves what follows them alone.", "quantifier": "all attributes and following bytes", "why_tests_cant": "all flag words and values", "anchors": ["sftp-common.c: encode_attrib, decode_attrib"]}
{"id": "C71", "title": "A download that stops early leaves a beginning of the file", "statement": "If an SFTP download into a new or resumed file fails or is interrupted, what is left on disk is a beginning of the remote file, so resuming it later gives the whole file.", "quantifier": "all files, block sizes, numbers of outstanding requests, orders and sizes of the server's answers, local write failures and interruptions", "why_tests_cant": "depends on the order of answers and the moment of failure", "anchors": ["sftp-client.c: sftp_download"]}
{"id": "C72", "title": "An upload that reports success has stored the file", "statement": "If an SFTP upload reports success, the writes sent are exactly the local file from the starting offset on, without gaps or overlaps, each was acknowledged once and every acknowledgement was a success; the remote file then has the content of the local file.", "quantifier": "all files, block sizes, numbers of outstanding requests, short reads, orders and values of acknowledgements", "why_tests_cant": "depends on the order and values of pipelined acknowledgements", "anchors": ["sftp-client.c: sftp_upload"]}
{"id": "C73", "title": "A recursive download stays below its destination", "statement": "Whatever names and file types a server gives, a recursive download creates directories only below the destination directory, and opens files only in such directories under names without a slash.", "quantifier": "all servers, trees, names, permissions and depths", "why_tests_cant": "the server may be hostile", "anchors": ["sftp-client.c: download_dir_internal, sftp_lsreaddir, sftp_path_append"]}
{"id": "C74", "title": "Host blocks apply exactly to the hosts they name", "statement": "The lines after a Host line apply just if some pattern on it matches the host given on the command line and no negated pattern does, until the next Host or Match line.", "quantifier": "all Host lines, host names and states of the configuration", "why_tests_cant": "pattern lists and host names are unbounded", "anchors": ["readconf.c: process_config_line_depth", "match.c: match_pattern"]}
{"id": "C75", "title": "Match blocks are conjunctions, and commands run only when all before them holds", "statement": "The lines after a client's Match line apply just if every criterion on it holds (a negated one: fails), judged by the values set so far; a command given with exec is run just if every criterion before it holds.", "quantifier": "all Match lines, option states and environments", "why_tests_cant": "the criteria can be combined without bound, and depend on the options set so far", "anchors": ["readconf.c: match_cfg_line", "readconf.c: process_config_line_depth"]}
{"id": "C76", "title": "Included files stay within their block", "statement": "A file included from the client's configuration sets nothing if the block it is included in does not apply, and after it that block applies or not as before, whatever blocks the file opened.", "quantifier": "all configurations, included files and nestings", "why_tests_cant": "nesting and file contents are unbounded", "anchors": ["readconf.c: process_config_line_depth", "readconf.c: read_config_file_depth"]}
{"id": "C77", "title": "Which server option is in force for a connection", "statement": "For every server option that is a number, text or list, the value in force for a connection is the first one given in a Match block that applies to it (if the option may be set there), else the first given on the command line and outside of blocks, else the default; lists of users, groups, environment names, ports and host keys collect all lines; what may not stand in a Match block is refused when the server starts.", "quantifier": "all options, configuration files, command lines, defaults and connections", "why_tests_cant": "order and number of lines, blocks and included files are unbounded, and about a hundred options are read, merged and copied by hand-written code and macros", "anchors": ["servconf.c: process_server_config_line_depth", "servconf.c: copy_set_server_options", "servconf.c: fill_default_server_options", "servconf.c: parse_server_match_config"]}
{"id": "C78", "title": "A server's Match block applies just if all its criteria hold", "statement": "The lines after a Match line of the server apply to a connection just if every criterion on it holds of the user, groups, host, addresses, port, routing domain or server version; before there is a connection, only blocks for all or for the server's version apply.", "quantifier": "all Match lines and connections", "why_tests_cant": "the criteria can be combined without bound", "anchors": ["servconf.c: match_cfg_line", "servconf.c: match_cfg_line_group"]}
{"id": "C79", "title": "Files included by the server's configuration stay within their block", "statement": "A file included from a Match block that does not apply sets nothing, whatever Match lines it has; after an Include line the block it stands in goes on as before.", "quantifier": "all configurations, included files and nestings", "why_tests_cant": "nesting and file contents are unbounded", "anchors": ["servconf.c: process_server_config_line_depth", "servconf.c: parse_server_config_depth"]}
{"id": "C80", "title": "Which subsystem is run", "statement": "The subsystem of a name is the first one defined under it in the Match blocks that apply, else the first one defined outside of blocks; defining subsystems in a block does not remove others, and is safe.", "quantifier": "all configurations and connections", "why_tests_cant": "depends on how many subsystems are defined where", "anchors": ["servconf.c: servconf_merge_subsystems", "servconf.c: copy_set_server_options", "servconf.h: COPY_MATCH_STRING_OPTS"]}
{"id": "C81", "title": "Which server keys are accepted", "statement": "With StrictHostKeyChecking yes a server is accepted only if its key (or a certificate of a listed authority) is listed for the name connected to and not revoked for it; with ask or accept-new a key not listed may be accepted only if no other key is listed, with ask only after the user agrees; a key revoked or changed for the name is never accepted unless checking is off, and then password, keyboard and agent, X11 and port forwarding are turned off.", "quantifier": "all known-hosts contents, keys and certificates, settings, replies of the user, names, ports and addresses", "why_tests_cant": "settings, file contents, marker and certificate combinations and retries multiply beyond enumeration", "anchors": ["sshconnect.c: check_host_key", "sshconnect.c: verify_host_key", "sshconnect.c: confirm"]}
{"id": "C82", "title": "What a connection records about the server", "statement": "The check adds to the user's known-hosts file only unmarked plain keys the server offered: for the name only if it was unknown there and the user agreed or new keys are accepted, for the address only if CheckHostIP is on and it was unknown there; it never turns an option on, and lets the server announce further keys only if its key is in a user file or was just agreed to; a key that differs from the address's listed key is not accepted without the user's agreement.", "quantifier": "all known-hosts contents, keys, settings and replies", "why_tests_cant": "depends on combinations of name and address state, settings and replies", "anchors": ["sshconnect.c: check_host_key", "hostfile.c: add_host_to_hostfile"]}
{"id": "C83", "title": "Host keys announced by the server", "statement": "When a server announces its host keys after login, the client changes its known-hosts files only if UpdateHostkeys allows it (with ask, if the user agrees) and no line for the host is marked, wildcarded or shared, and no key concerned is listed for somebody else; afterwards the keys listed for the host are exactly the announced ones of accepted algorithms, each of which was listed before or whose private key the server has proved to hold in this session; all lines that are not plain entries of the host are kept.", "quantifier": "all file contents, announcements, proofs, replies and settings", "why_tests_cant": "file contents and server messages are unbounded and adversarial", "anchors": ["clientloop.c: client_input_hostkeys", "clientloop.c: client_global_hostkeys_prove_confirm", "clientloop.c: update_known_hosts", "clientloop.c: hostkeys_find"]}
{"id": "C84", "title": "The exchange hash covers everything said in the exchange", "statement": "What is hashed and signed in a key exchange is the concatenation prescribed by the RFCs: both identification strings, both KEXINIT messages, the host key, for group exchange the sizes asked for and the group, both public values, and the shared secret. Two exchanges that differ in any of these never lead to the same text being hashed.", "quantifier": "for all identification strings, KEXINIT messages, host keys, public values, group parameters and secrets that fit the length fields of the protocol", "why_tests_cant": "A missing or ambiguous field shows only if an attacker finds two exchanges with the same hashed text; tests with two cooperating implementations succeed either way.", "anchors": ["kexgen.c: kex_gen_hash", "kexgex.c: kexgex_hash", "sshbuf-getput-crypto.c: sshbuf_put_bignum2"]}
{"id": "C85", "title": "Strict key exchange leaves no room for inserted packets", "statement": "If the peer offers strict key exchange in its first KEXINIT and the first exchange completes, then the packets received from the start of the connection were exactly KEXINIT, a wrongly guessed packet that was announced (if any), the messages of the method agreed on, in order, and NEWKEYS; the sequence number then starts at zero. Any other packet, even one that is otherwise ignored, ends the connection.", "quantifier": "for every sequence of packets and other events, both roles, every pair of proposals and both families of exchange methods", "why_tests_cant": "The property speaks about all sequences of packets an attacker may insert; tests try a few.", "anchors": ["kex.c: kex_input_kexinit, kex_protocol_error, kex_input_newkeys, kex_choose_conf", "packet.c: ssh_packet_read_poll_seqnr, ssh_packet_read_poll2", "dispatch.c: ssh_dispatch_run"]}
{"id": "C86", "title": "Keys are used only after an authenticated exchange, and both ends agree on it", "statement": "At every moment of a connection, the keys in use in either direction come from an exchange whose hash covers the messages really sent and received; for a client, the host key of that exchange was accepted, has the type agreed on, and its signature of that hash was verified. The session identifier is the hash of the first exchange and never changes. If signatures cannot be forged and hashes do not collide, every exchange a client completes is one that the server completed with the same identification strings, KEXINIT messages, algorithms, public values and secret, and within the same session the keys of the two ends are the same.", "quantifier": "for every sequence of packets and events at both ends, any number of key exchanges, every choice of the primitives that meets the stated assumptions", "why_tests_cant": "It is about all behaviours of an active attacker over any number of key exchanges.", "anchors": ["kexgen.c: kex_gen_client, input_kex_gen_reply, input_kex_gen_init", "kexgexc.c: input_kex_dh_gex_group, input_kex_dh_gex_reply", "kexgexs.c: input_kex_dh_gex_request, input_kex_dh_gex_init", "kex.c: kex_send_kexinit, kex_input_kexinit, kex_send_newkeys, kex_input_newkeys, kex_derive_keys"]}
{"id": "C87", "title": "Group exchange uses acceptable groups, and public values are checked", "statement": "The group a server offers in group exchange has a size the client accepts, and is the smallest such group of the moduli file reaching the wish, or else the largest; every group of that size can be drawn. Only lines stating a tested safe prime of exactly the length stated, with a generator above one, are used. A request is refused exactly if no group fits. Public values are accepted exactly if they lie between 2 and p-2 and have at least four one bits, and private values are as long as the strength asked for demands.", "quantifier": "for every moduli file, every minimum, wish and maximum, every random choice, every prime and public value", "why_tests_cant": "Files, orders of lines and numbers are unbounded.", "anchors": ["dh.c: choose_dh, parse_prime, dh_new_group_fallback, dh_pub_is_valid, dh_gen_key, dh_estimate"]}
{"id": "C88", "title": "Identification strings are read exactly as sent", "statement": "A peer's identification string is accepted exactly if it is a line of at most 8192 bytes without NUL or stray carriage returns announcing protocol version 2 (or 1.99); a client tolerates fewer than 1024 other lines before it, a server none. No byte after the line is consumed, the string kept for the exchange hash is the text of the line, and it is the string the sender keeps. The software version never overruns its buffer. Peers running recent versions are given no bug workarounds, and key exchange methods are left out exactly for peers that need it.", "quantifier": "for every sequence of bytes received, every configured addendum, every proposal", "why_tests_cant": "The inputs are unbounded streams from an unauthenticated peer.", "anchors": ["kex.c: kex_exchange_identification", "compat.c: compat_banner, compat_kex_proposal"]}
{"id": "C89", "title": "Curve25519 key agreement computes X25519 and both ends agree", "statement": "The scalar multiplication used for curve25519-sha256 computes, for every private value and every point whose top bit is clear, exactly the function X25519 of RFC 7748: its intermediate numbers never leave 32-bit words, and the result is the first coordinate, fully reduced, of the multiple of the point on the curve or its twist. Two honest ends always compute the same secret and never refuse each other; points of order dividing eight are always refused, and a secret that is not refused is not zero.", "quantifier": "for every 32-byte private value and every 32-byte point", "why_tests_cant": "There are 2^510 pairs; carries that go wrong for a few of them have been found in such code before.", "anchors": ["smult_curve25519_ref.c: crypto_scalarmult_curve25519", "kexc25519.c: kexc25519_keygen, kexc25519_shared_key_ext"]}
{"id": "C90", "title": "Keys and certificates mean one thing and are what was signed", "statement": "A byte string is accepted as a key or certificate exactly if it has the documented layout to the last byte; a certificate is accepted only if the authority's key, which is never itself a certificate, signed exactly the bytes before the signature. These bytes determine the certified key, serial number, type, key id, principals, validity, options and authority. A certificate is passed on byte for byte as received; keys that are written are read back; a certificate that is issued is read back as it was meant. A key has only one accepted encoding.", "quantifier": "for every byte string, every key and every certificate", "why_tests_cant": "Ambiguity or trailing data in an unbounded nested format can hide in inputs nobody tries.", "anchors": ["sshkey.c: sshkey_from_blob, cert_parse, sshkey_to_blob, sshkey_certify_custom, keyimpls", "ssh-rsa.c: ssh_rsa_deserialize_public", "ssh-ecdsa.c: ssh_ecdsa_deserialize_public", "ssh-ed25519.c: ssh_ed25519_deserialize_public"]}
{"id": "C91", "title": "Signatures are accepted only in the form their algorithm prescribes", "statement": "A signature is accepted exactly if it consists, to the last byte, of the name of an algorithm belonging to the key and the parts that algorithm prescribes, and the primitive accepts it for the data with the hash belonging to the algorithm or curve. For security keys the primitive is given the hash of the application, flags, counter, extensions and message, which together stand for one such combination; for webauthn the client data stand for one message and one origin. If an algorithm is asked for, signatures by another are refused.", "quantifier": "for every key, signature, text and algorithm asked for", "why_tests_cant": "Acceptance of malformed or substituted signatures is a claim about all inputs an attacker might send.", "anchors": ["sshkey.c: sshkey_verify, sshkey_check_sigtype, sshkey_sigalg_by_name", "ssh-rsa.c: ssh_rsa_verify", "ssh-ecdsa.c: ssh_ecdsa_verify", "ssh-ed25519.c: ssh_ed25519_verify", "ssh-ed25519-sk.c: ssh_ed25519_sk_verify", "ssh-ecdsa-sk.c: ssh_ecdsa_sk_verify, webauthn_check_prepare_hash", "sshbuf-misc.c: sshbuf_dtourlb64"]}
{"id": "C92", "title": "Extension information is read exactly, and at most as often as foreseen", "statement": "A message of extension information is accepted exactly if it is well formed to the last byte and the extensions the reader knows have no NUL in their values. The reader then knows the signature algorithms given last and which extensions were announced in the known version, and nothing else changes; extensions meant for the beginning are ignored in a second message. A server reads one such message, a client two; further ones, and ones with 1024 or more entries, are answered and ignored. What either end sends the other understands.", "quantifier": "for every message and every state", "why_tests_cant": "The message is an unbounded list from the peer.", "anchors": ["kex.c: kex_input_ext_info, kex_ext_info_client_parse, kex_ext_info_server_parse, kex_ext_info_check_ver, kex_maybe_send_ext_info"]}
{"id": "C93", "title": "Dynamic forwarding connects to the target asked for and loses no byte", "statement": "However the bytes of a connection to a dynamically forwarded port are cut into pieces, the client opens a connection to a host and port exactly if the bytes begin with a request of SOCKS4, SOCKS4A or SOCKS5 for that host and port that needs no authentication; the answer sent is the one of the protocol, and the bytes after the request, no more and no fewer, are held for the target. A connection is given up only if nothing that could still follow would make it a request. After the greeting of SOCKS5 only a SOCKS5 request is granted, and the host is the name in the request.", "quantifier": "for every sequence of bytes and every way of cutting it into pieces", "why_tests_cant": "The ways of cutting a stream into pieces are exponentially many, and names and user strings are unbounded.", "anchors": ["channels.c: channel_decode_socks4, channel_decode_socks5, channel_pre_dynamic"]}
{"id": "C94", "title": "Only X11 clients that present the made-up cookie reach the display", "statement": "However the data of a forwarded X11 connection are cut into pieces, something reaches the X11 server exactly if the data begin with a complete first message using the protocol agreed on and the made-up cookie. What reaches it is then all data unchanged, but for the real cookie in place of the made-up one. A connection is refused only if nothing that could follow would make it acceptable, complete messages are never kept waiting, after the deadline every connection not yet accepted is refused, and the real cookie has no influence on anything before a connection is accepted.", "quantifier": "for every sequence of data, every way of cutting it, every protocol and cookies", "why_tests_cant": "The ways of cutting a stream into pieces are exponentially many; the first message comes from a possibly hostile server.", "anchors": ["channels.c: x11_open_helper, channel_pre_x11_open"]}
{"id": "C95", "title": "A key lets a user in only if a configured place lists it and nobody revoked it", "statement": "The server accepts a key for a user, with certain options, only if neither the key nor the authority that signed it is revoked and a line of a configured authorized_keys file, a trusted certification authority, or a line printed by the configured command accepts it with these options; and it refuses a key that is not revoked only if none of these accepts it. Files are tried first and in order. With StrictModes and no command, a key that is not a certificate is accepted only for a line of a file that nobody but root and the user can change or replace.", "quantifier": "for every configuration, file system, user and key", "why_tests_cant": "Configurations, file systems and contents of the files are unbounded; that there is no other way in is a statement about all of them.", "anchors": ["auth2-pubkey.c: user_key_allowed, user_key_allowed2, user_cert_trusted_ca, user_key_command_allowed2", "auth2-pubkeyfile.c: auth_openfile", "auth.c: expand_authorized_keys"]}
{"id": "C96", "title": "With StrictModes only files that nobody else can change are trusted", "statement": "With StrictModes a file is used exactly if it is a regular file belonging to root or the user that neither group nor others may write to, and the same holds of every directory on its real path up to the home directory, or up to the root if the home directory is not on the way. Consequently nobody but root and the user can write to it or to one of these directories, whatever groups they are in.", "quantifier": "for every file system, path, home directory, user and set of groups", "why_tests_cant": "Paths are of any depth; one directory skipped on the way lets somebody else replace the file.", "anchors": ["misc.c: safe_path, safe_path_fd", "openbsd-compat/dirname.c: dirname", "auth2-pubkeyfile.c: auth_openfile"]}
{"id": "C97", "title": "A signature for public-key authentication is good for one request only", "statement": "Public-key authentication succeeds, with certain options, exactly if the request has the prescribed form with nothing after the signature, the user is valid, the key is of the kind named, was not used before, is permitted by the configuration and listed for the user with these options, the signature is right for the key over data naming this session, user, service, method, algorithm and key (and the host key of this connection for the bound method), security keys were touched and the holder verified as demanded, and the options fit those in force. These data determine all that they name, so a signature made for another session, user, service or key is of no use. Without a signature the server only tells, of a valid user and a listed key, that the key would do.", "quantifier": "for every request, configuration, session and verification function", "why_tests_cant": "A test cannot try all requests; that no part of the session is left out of what is signed is a statement about all pairs of requests.", "anchors": ["auth2-pubkey.c: userauth_pubkey", "auth.c: auth_activate_options"]}
{"id": "C98", "title": "Host-based authentication needs a trusted host, its key and its signature for this very request", "statement": "Host-based authentication succeeds exactly if the request has the fields prescribed, the user is valid, the key is of the kind named and permitted, not revoked, and vouched for by the known-hosts files under the name of the client host, that host and the user on it are trusted, a certificate is a host certificate valid now for that name, and the signature is right for the key over data naming this session, user, service, method, algorithm, key, client host and user there. These data determine all that they name. A certificate with critical options is refused, and so is a key that any of the four files revokes.", "quantifier": "for every request, configuration, set of files and verification function", "why_tests_cant": "Requests, files and configurations are unbounded; what is left out of the data signed only shows in pairs of requests.", "anchors": ["auth2-hostbased.c: userauth_hostbased, hostbased_key_allowed", "auth.c: check_key_in_hostfiles"]}
{"id": "C99", "title": "Trusted hosts are those listed, the first entry deciding", "statement": "A user from a host is trusted exactly if, unless logging in as root, a system-wide file or else a file of the user grants access: the first line that is an entry for this host (by name in any case, address or group) and this user (by name or group, or the same name if none is given) decides, and it does not deny. Files of the user count only if they are not ignored and neither they nor the home directory can be changed by others. Comments grant nothing.", "quantifier": "for every content of the files, host, address and user", "why_tests_cant": "The format has signs, groups, comments and defaults that combine, and lines of any length.", "anchors": ["auth-rhosts.c: check_rhosts_file, auth_rhosts2"]}
{"id": "C100", "title": "The signing helper vouches only for the user who runs it", "statement": "The helper that may read the host keys signs data exactly if they are a complete request for host-based authentication from this host on behalf of the user who runs it, and only with a host key, if enabled by the administrator. If the data a server checks were signed by the helper, the user on the client host that the server is told of is the one who ran it.", "quantifier": "for every data handed to the helper, and every request to a server", "why_tests_cant": "The data come from an untrusted program; that no encoding of another request passes is a statement about all byte strings.", "anchors": ["ssh-keysign.c: valid_request, main", "auth2-hostbased.c: userauth_hostbased"]}
{"id": "C101", "title": "Text from elsewhere cannot control the terminal", "statement": "File names, banners, comments and messages shown by the programs are read character by character in the encoding of the locale; each character that can be shown appears as it is, each byte of anything else as a backslash and three octal digits. What is given out, wherever it has been cut for lack of space or width, decodes to characters that can be shown (besides newline, carriage return and tab where no width is given); nothing is written beyond the memory allocated; the limits hold; a result below the size of the buffer means that all has been shown. In locales where bytes cannot be escaped safely, a text with anything that cannot be shown is refused.", "quantifier": "for every text, every limit of size and width, and every locale whose decoding is prefix-determined and compatible with ASCII", "why_tests_cant": "The texts are chosen by the other side; that no sequence of bytes, cut at any place, leaves a control character is a statement about all of them.", "anchors": ["utf8.c: vasnmprintf", "utf8.c: vfmprintf", "utf8.c: grow_dst", "openbsd-compat/vis.c: vis"]}
{"id": "C102", "title": "A log message is one line of visible characters and can be told from every other", "statement": "Whatever the message, what goes to the system log are at most 500 bytes, all visible characters of ASCII or spaces, the beginning of a rendering of the message that is a function of its bytes and injective; a message whose rendering is short enough is logged as a whole. On the standard error output only tab, newline, carriage return, backspace and bell appear besides. The rendering fits its buffer, is cut between renderings of bytes, and its whole length is the result.", "quantifier": "for every message, set of flags and size of the buffer", "why_tests_cant": "User names and other text of the peer go into log messages; that none forges a line or hides in an escape needs all byte strings.", "anchors": ["openbsd-compat/vis.c: vis, strnvis", "log.c: do_log"]}
{"id": "C103", "title": "A session runs what is forced or what was asked for, once, and has only what is permitted", "statement": "On a session channel at most one program is ever started. If the configuration or else the key forces a command, then whatever sequence of requests the client sends, that command and no other is run (or the internal SFTP server with its words as options, or nothing but a message, if the command is internal-sftp), and no signal is delivered. Otherwise exactly what was asked for is run: the login shell, the command, or the configured subsystem. Users who must change the password or may not log in get nothing else. Signals are those seven that are permitted. A session has a terminal, display, agent socket or client variables only if configuration and key both permit it.", "quantifier": "for every configuration, every sequence of requests with any bytes, and whatever the system answers", "why_tests_cant": "The client orders, repeats and malforms requests at will, and system calls fail between them; a restricted key must hold against all sequences.", "anchors": ["session.c: do_exec", "session.c: session_input_channel_req", "session.c: session_subsystem_req, session_exec_req, session_shell_req", "session.c: do_child", "session.c: session_signal_req", "session.c: session_env_req"]}
{"id": "C104", "title": "The environment of a session: last assignment wins, and each party sets only what it may", "statement": "In the environment of the program run each name occurs once and has the value assigned last, in the order: client, account and session, key, file of the user, PAM, administrator, connection. The client has no influence on variables outside AcceptEnv nor on user, home, path and shell; the user has none without PermitUserEnvironment, and none outside its list of names; SSH_CONNECTION and SSH_CLIENT always are what the server knows, and so is SSH_ORIGINAL_COMMAND if there was one. No write goes beyond the array; up to 999 assignments and 1000 lines it succeeds.", "quantifier": "for all contents of all sources and all names without =", "why_tests_cant": "The interplay of seven sources with growing memory; non-interference compares all pairs of inputs.", "anchors": ["session.c: do_setup_env", "session.c: child_set_env", "session.c: read_environment_file", "session.c: copy_environment_denylist"]}
{"id": "C105", "title": "A root directory only root can change, and no smuggled commands for xauth", "statement": "A session is confined to a directory exactly if its path is absolute and shorter than the limit, and the directory and every directory on the way to it belongs to root and is not writable by group or others. Whatever the client sends, xauth reads exactly two lines, remove D and add D P K, of words without blanks, quotes or ends of lines, D being the name given by the server. The script of the user is run only without subsystem and ForceCommand and if both configuration and key permit it.", "quantifier": "for every file system and path; for every sequence of requests", "why_tests_cant": "Injection uses strings nobody thought of; each prefix of each path must be looked at.", "anchors": ["session.c: safely_chroot", "session.c: do_rc_files", "session.c: xauth_valid_string", "session.c: session_x11_req"]}
{"id": "C106", "title": "The client tries the methods the user prefers, in that order, a limited number of times, and batch mode asks nothing", "statement": "While the client authenticates, the method in use is always the first of the preferred ones that the configuration allows, the server has offered and that has not run out. On each list of methods from the server the client sends exactly one packet, or it is over because no method is left (or because of a key). A method is given up only when its attempts are used up: at most NumberOfPasswordPrompts passwords and keyboard-interactive requests, one host-based request for each host key. Methods that the configuration excludes are never used. In batch mode the user is asked for nothing.", "quantifier": "for every configuration and every sequence of messages of the server, whatever keys, agent and user answer", "why_tests_cant": "The server chooses its messages freely and can repeat them without end; a limit must hold on all runs.", "anchors": ["sshconnect2.c: userauth", "sshconnect2.c: authmethod_get", "sshconnect2.c: input_userauth_failure", "sshconnect2.c: userauth_passwd", "sshconnect2.c: userauth_kbdint", "sshconnect2.c: userauth_hostbased"]}
{"id": "C107", "title": "The client offers only keys it may offer, each once", "statement": "Each key offered comes from a configured file, a configured certificate or, unless IdentitiesOnly, a PKCS#11 token or the agent; it may be used for users, its type is accepted by the configuration, and the algorithm is accepted for it and, as far as the server has said, known to the server. However often the server refuses, each key is offered once; again only after the server has announced partial success.", "quantifier": "for every configuration, every content of agent and files, and every sequence of messages", "why_tests_cant": "What is disclosed to a hostile server matters on every run, not on those tried; the number of offers is bounded on runs of any length.", "anchors": ["sshconnect2.c: pubkey_prepare", "sshconnect2.c: userauth_pubkey", "sshconnect2.c: send_pubkey_test", "sshconnect2.c: key_sig_algorithm", "sshconnect2.c: try_identity"]}
{"id": "C108", "title": "The client signs only requests of this session for this user, and with the key that is named", "statement": "Whatever a server sends, what the client signs is a request to log in with the session identifier, the user, the service, an algorithm that may be used, and the key, and the server's host key if the extension is in use; it is signed by the key that it names; and what is sent is what was signed followed by a signature by the named algorithm. It is the data the server computes for this session. The client does not crash.", "quantifier": "for every configuration and every sequence of messages with any bytes", "why_tests_cant": "A signing oracle is a matter of all messages a hostile server can compose.", "anchors": ["sshconnect2.c: sign_and_send_pubkey", "sshconnect2.c: identity_sign", "sshconnect2.c: input_userauth_pk_ok", "sshconnect2.c: maybe_add_key_to_agent"]}
{"id": "C109", "title": "Each message of the server brings about only the answer it calls for, and only the server's word is success", "statement": "Whatever the client prints, asks, signs or sends on a message is an answer to this message: at most one packet, prompts only of the method in use, answers to questions as many as were asked. The client is authenticated exactly when the server says so after it has accepted the service. Any message out of place ends the connection and nothing else happens.", "quantifier": "for every reachable state and every message with any bytes", "why_tests_cant": "Message handlers are installed and removed as methods come and go; all interleavings matter.", "anchors": ["sshconnect2.c: ssh_userauth2", "sshconnect2.c: input_userauth_service_accept", "sshconnect2.c: input_userauth_success", "sshconnect2.c: input_userauth_info_req", "sshconnect2.c: input_userauth_passwd_changereq", "sshconnect2.c: input_userauth_banner"]}
{"id": "C110", "title": "The sandbox of the unauthenticated process permits exactly the listed system calls", "statement": "Once the filter of the unauthenticated process is in force, a system call is carried out only if it is made for the architecture the program was built for and is on the list, with arguments as restricted there (no executable mappings, certain madvise and ioctl requests, certain futex operations); the calls listed as refused fail with an error; everything else ends the process. The kernel accepts the filter on every platform. Before it is in force resource limits forbid growing files and new processes, and privileges cannot be gained.", "quantifier": "for every system call number, every architecture word and all values of the six arguments, on every platform with any selection of the system calls", "why_tests_cant": "2^32 numbers times six 64-bit arguments; a wrong jump offset lets pass a call that no test makes.", "anchors": ["sandbox-seccomp-filter.c: preauth_insns", "sandbox-seccomp-filter.c: ssh_sandbox_child", "sandbox-seccomp-filter.c: SC_ALLOW_ARG", "sandbox-seccomp-filter.c: SC_ALLOW_ARG_MASK"]}
{"id": "C111", "title": "Privileges are given up for a while and come back, or are given up for good", "statement": "After permanently_set_uid has returned, real, effective and saved ids are those of the user, and for a user other than root no sequence of system calls brings others back. With any kernel it returns only if real and effective ids are the user's and the attempts to regain the old ones have failed. A privileged process that takes on users for a while has, at any time, either exactly its own credentials or the effective ids and groups of a user asked for; each restore after a change brings back exactly what was before. While a user is taken on, privileges cannot be given up for good. A process without privileges is not changed.", "quantifier": "for every order of calls, all users other than root, all credentials at the start, and whatever system calls fail", "why_tests_cant": "Tests cannot run as root under kernels that fail at any chosen call, and cannot show that no sequence of calls leads back.", "anchors": ["uidswap.c: temporarily_use_uid", "uidswap.c: restore_uid", "uidswap.c: permanently_set_uid"]}
{"id": "C112", "title": "The server opens, listens and connects only as the client asked and the configuration permits", "statement": "Whatever a client sends after authentication: a session is begun only for a well-formed request before no-more-sessions; a connection to an address or socket is begun only if the client named it and the configuration, the key and the permissions of the user allow it; a tunnel only with PermitTunnel of that mode and the device the key prescribes; listeners only where permitted; everything that is permitted is done. Each request to open a channel gets exactly one answer with the number the client gave; each global request is answered if and only if an answer was wanted, and a listener with port 0 is told the port. With DisableForwarding no forwarding is done.", "quantifier": "for every sequence of messages, every configuration and everything the system may answer", "why_tests_cant": "All messages with all truncations, and all configurations; the absence of a connection that is not permitted cannot be tested.", "anchors": ["serverloop.c: server_input_channel_open", "serverloop.c: server_input_global_request", "serverloop.c: server_input_channel_req", "serverloop.c: server_request_tun", "serverloop.c: server_request_direct_tcpip", "serverloop.c: server_request_direct_streamlocal", "channels.c: connect_to_helper"]}
{"id": "C113", "title": "A server can open at the client only what the client invited", "statement": "When the server opens a channel the client connects to its display only with ForwardX11 and before the timeout, to its agent only with ForwardAgent, and elsewhere only where a remote forwarding leads that the client itself asked for at that listening address. Each such channel gets exactly one answer with the server's number; the connection ends only at malformed messages. Of the global requests of the server only the announcement of host keys is acted on, and an answer is sent if and only if one was wanted.", "quantifier": "for every message, every configuration, every history of requests for remote forwardings with their answers and cancellations, and any time", "why_tests_cant": "A hostile server can send anything at any time; tests try some requests.", "anchors": ["clientloop.c: client_input_channel_open", "clientloop.c: client_request_x11", "clientloop.c: client_request_agent", "clientloop.c: client_request_forwarded_tcpip", "clientloop.c: client_request_forwarded_streamlocal", "clientloop.c: client_input_global_request"]}
{"id": "C114", "title": "Escapes are recognised only at the beginning of a line; everything else is sent as it is", "statement": "A command is run if and only if its character was typed right after the escape character and that at the beginning or after a newline; it makes no difference in which pieces the input arrives. Input without the escape character at the beginning of a line is sent unchanged, and by typing it twice there anything at all can be sent. In a session of another client that shares the connection no command is run that concerns the whole client, and there is a command line only with EnableEscapeCommandline. Sessions that share a connection do not influence each other.", "quantifier": "for every input, in every division into pieces, every escape character and every kind of session", "why_tests_cant": "All inputs in all divisions into pieces; pasted or binary data is what users send.", "anchors": ["clientloop.c: process_escapes", "clientloop.c: client_simple_escape_filter"]}
{"id": "C115", "title": "Answers to global requests reach the one who asked; keep-alives end a connection exactly after the silence configured", "statement": "Each answer of the server is given to the party whose request it answers, in order, however requests of several parties are mixed. The client gives up exactly when more than ServerAliveCountMax intervals in a row pass without any message, and the server likewise with ClientAliveCountMax, where 0 means never; until then each silent interval is answered with one keep-alive.", "quantifier": "for every order of requests, answers, messages and timeouts and every limit", "why_tests_cant": "Unbounded sequences of events in every order.", "anchors": ["clientloop.c: client_register_global_confirm", "clientloop.c: client_global_request_reply", "clientloop.c: server_alive_check", "serverloop.c: client_alive_check"]}
{"id": "C116", "title": "A session is begun with the variables that are configured and with one thing to run", "statement": "The client asks for the terminal if there is to be one, then sends those variables of its environment whose names a pattern of SendEnv matches, then those of SetEnv, each with its value and no others; then, last and once, for the command, the subsystem or the shell, exactly as given, and it wants an answer to that.", "quantifier": "for every environment, every list of patterns and every command", "why_tests_cant": "All environments and patterns; that nothing else is disclosed to the server cannot be tested.", "anchors": ["clientloop.c: client_session2_setup", "clientloop.c: client_send_env"]}
{"id": "C117", "title": "DNS vouches for a host key only if the answer is validated and no fingerprint in it contradicts the key", "statement": "With VerifyHostKeyDNS yes, fingerprints in the DNS let a host key pass without the known-hosts files exactly if the host was given by name, the answer is validated, every record in it has a known digest, at least one record has the algorithm, digest and fingerprint of the key, and none has its algorithm and another fingerprint of the same length. Otherwise, and with ask, a match is only noted for the question to the user. If the records (all understood) do not confirm the key or one contradicts it, the user is warned. A key that is revoked is refused before the DNS is asked.", "quantifier": "for all answers with any records of any length, all keys and all values of the option", "why_tests_cant": "Answers come from the network in any order and number; tests have no validating resolver and try one record.", "anchors": ["dns.c: verify_host_key_dns", "dns.c: dns_read_key", "dns.c: dns_read_rdata", "sshconnect.c: verify_host_key"]}
{"id": "C118", "title": "The records ssh-keygen prints for a zone are those by which the client recognises the key", "statement": "For a key whose kind has a number, ssh-keygen -r prints one line per digest asked for, in the format of RFC 4255 or RFC 3597, that names the host and the record of this key. The client accepts the key with these records in a validated answer, and accepts another key only if it is of the same algorithm and agrees in all fingerprints there. For other kinds nothing is printed.", "quantifier": "for all keys, host names, digests and both formats", "why_tests_cant": "Writer and reader are in different programs; agreement for all keys and fingerprints is not shown by samples.", "anchors": ["dns.c: export_dns_rr", "dns.c: verify_host_key_dns", "dns.c: dns_read_key"]}
{"id": "C119", "title": "Reading the answer of a name server stays within it and takes only the records of the answer section that fit the question", "statement": "Whatever message arrives, no byte outside of it is read. It is accepted exactly if it consists of a header, the counted questions and the three counted sections of records, with exactly one question; the caller gets, in their order, the data of those records of the answer section whose class and type are those of the question in the message, and the answer counts as validated exactly if the header says so. The code must not be called with a message without answers.", "quantifier": "for all byte strings and whatever lengths of names the library reports", "why_tests_cant": "Messages are any bytes of up to 64 kB from an untrusted server; out-of-bounds reads show only for a few of them.", "anchors": ["openbsd-compat/getrrsetbyname.c: parse_dns_response", "openbsd-compat/getrrsetbyname.c: parse_dns_qsection", "openbsd-compat/getrrsetbyname.c: parse_dns_rrsection", "openbsd-compat/getrrsetbyname.c: getrrsetbyname"]}
{"id": "C120", "title": "The host name a client uses is the one given, completed only by the configured domains and by aliases that a rule permits", "statement": "From the name given, the client arrives exactly at the name ssh_config(5) describes: addresses are used in their usual form; other names are put into lower case, and with CanonicalizeHostname are completed by the first configured domain under which they exist (unless they have too many dots, or a proxy is used and always was not asked for); the alias the DNS gives is used only if it is a well-formed domain name and CanonicalizePermittedCNAMEs has a rule from the completed name to it. Without fallback, a name found in no domain ends the program. Without CanonicalizeHostname the name is only put into lower case, whatever the DNS says. No byte outside of the name is read.", "quantifier": "for all names, configurations and all answers of the resolver", "why_tests_cant": "Depends on answers of the DNS, which may be hostile, and on the combination of five options; tests have no name server.", "anchors": ["ssh.c: resolve_canonicalize", "ssh.c: check_follow_cname", "ssh.c: resolve_host", "ssh.c: is_addr", "misc.c: valid_domain", "readconf.c: config_has_permitted_cnames"]}
{"id": "C121", "title": "The destination and jump hosts are taken apart as documented, and jump hosts are visited in the order given", "statement": "The argument of ssh is read as ssh://[user@]host[:port] or as [user@]host with the last @, and nothing else is accepted; a hop of ProxyJump as the same URI or as [user@]host[:port]. The hops of ProxyJump are connected through one after the other in the order given, each with its user and port.", "quantifier": "for all arguments and lists of hops of any length", "why_tests_cant": "Unbounded texts and chains of processes, each of which takes apart what the one before passed on.", "anchors": ["ssh.c: main", "readconf.c: parse_ssh_uri", "readconf.c: parse_jump", "misc.c: parse_uri", "misc.c: parse_user_host_port", "misc.c: urldecode", "misc.c: rtrim"]}
{"id": "C122", "title": "Names that are put into commands cannot change these commands", "statement": "Host names from the command line or the DNS, user names, and jump hosts stand for themselves wherever they are put into a command for the shell: they end no word and no command, substitute nothing, and are not taken for an option.", "quantifier": "for all names and all commands around them", "why_tests_cant": "Tests try some dangerous characters in some commands; the claim is about all names and contexts.", "anchors": ["ssh.c: valid_hostname", "ssh.c: valid_ruser", "ssh.c: main", "misc.c: valid_domain", "readconf.c: parse_jump"]}
{"id": "C123", "title": "Every request of a client of a shared connection is answered once, in order and by its number", "statement": "A master says hello at once and looks at no request before a greeting of version 4. From then on each request is answered by exactly one packet that carries its number, in the order of the requests; only the last may still be open, while the server is asked or when the control connection has ended. No request is looked at while an answer is waited for. Packets that are no requests end the control connection and nothing else; unknown requests are refused. No packet ends the whole program.", "quantifier": "for all configurations, all sequences of packets of the client, answers of the server, of the user and of the system, in any order", "why_tests_cant": "Tests use the client that comes with it, which never sends wrong packets and always waits for an answer.", "anchors": ["mux.c: mux_master_read_cb", "mux.c: mux_master_process_hello", "mux.c: mux_master_process_alive_check", "mux.c: mux_session_confirm", "mux.c: mux_stdio_confirm", "mux.c: mux_confirm_remote_forward", "mux.c: format_forward", "channels.c: channel_post_mux_client_read"]}
{"id": "C124", "title": "With ControlMaster=ask nothing is done for a client that the user has not agreed to", "statement": "If ControlMaster is ask or autoask, a session, a forwarding of any kind, the end of the connection and of listening for clients are each preceded by a question that says what is to be done and where, and that the user has answered with yes (or by confirming); everything else than agreement is a refusal, which the client is told and after which nothing is done. Otherwise no questions are asked.", "quantifier": "for all requests, states, and answers of the user", "why_tests_cant": "The question goes to a person or askpass; the claim is about every request and the text of the question for it.", "anchors": ["mux.c: mux_master_process_new_session", "mux.c: mux_master_process_open_fwd", "mux.c: mux_master_process_stdio_fwd", "mux.c: mux_master_process_terminate", "mux.c: mux_master_process_stop_listening", "mux.c: mux_master_process_proxy", "mux.c: format_forward", "readpass.c: ask_permission"]}
{"id": "C125", "title": "A session over a shared connection is the one the client asked for, within what the master permits", "statement": "A request for a session that is granted opens one channel with the three descriptors of the client, with a smaller window and the escape character of the client if it has a terminal; when the server has opened it, terminal, command, subsystem and those variables that SendEnv of the master permits are set up, and the agent or X11 are forwarded only if the client wants it and the master has it. There is at most one session or forwarding of input and output for a control connection, ever.", "quantifier": "for all requests, configurations and runs of a control connection", "why_tests_cant": "The variables and options of the client are arbitrary bytes from another process, and the bound on sessions is about all sequences of requests.", "anchors": ["mux.c: mux_master_process_new_session", "mux.c: mux_session_confirm", "mux.c: env_permitted", "mux.c: mux_master_session_cleanup_cb"]}
{"id": "C126", "title": "The client of a shared connection gets what it asks for and ends with the exit status of its session", "statement": "What a client asks for - forwardings, a session with its command, terminal and variables - is what the master takes the request to be. The client takes it to be done only by an answer with the number of its request. Its exit status is the one that the master reports for its session, which must come once only and for this session; otherwise it is 255. Commands (-O) end with 0 only if the master has done them.", "quantifier": "for all options of the client and all answers of a master", "why_tests_cant": "Both ends are only tested against each other; wrong numbers, repeated exit messages and lost masters do not occur.", "anchors": ["mux.c: muxclient", "mux.c: mux_client_forward", "mux.c: mux_client_forwards", "mux.c: mux_client_request_session", "mux.c: mux_client_request_stdio_fwd", "mux.c: mux_client_request_alive", "mux.c: mux_client_request_terminate", "mux.c: mux_client_request_stop_listening", "mux.c: mux_client_proxy", "mux.c: mux_client_hello_exchange"]}
{"id": "C127", "title": "Forwardings opened and closed over a shared connection are those in effect", "statement": "A client that is told that a forwarding is open can rely on something listening for it: it has been set up now, or is in effect from before, by the same ends; the port the server has chosen is reported. A forwarding is never set up twice. A client that is told that it is closed can rely on it being closed, and it can be opened anew afterwards; no other one is changed. What the server refuses leaves nothing behind.", "quantifier": "for all requests, tables of forwardings, and runs with several clients", "why_tests_cant": "Depends on the order in which several clients open and close the same and different forwardings.", "anchors": ["mux.c: mux_master_process_open_fwd", "mux.c: mux_master_process_close_fwd", "mux.c: mux_confirm_remote_forward", "mux.c: compare_forward", "mux.c: compare_host", "channels.c: channel_cancel_lport_listener"]}
{"id": "C128", "title": "The master reads whole packets of a client, however they arrive, and never beyond the end of one", "statement": "Whatever pieces the bytes of a client arrive in, the packets the master handles are those that were written, in order, with none lost and none split; no byte behind the end of a packet is read before the packet is handled, so that passed descriptors stay with the request they belong to. A packet of more than 256 KiB is not read.", "quantifier": "for all streams and all sizes of pieces", "why_tests_cant": "Short reads depend on timing and the system.", "anchors": ["channels.c: read_mux", "channels.c: channel_post_mux_client_read"]}
{"id": "C129", "title": "Clients that share a connection as proxies get the messages of their own channels, and only these", "statement": "What a client of a shared connection in proxy mode sends to the server arrives unchanged, except that the number it gives to a channel it opens or confirms is replaced by one that no open channel of the connection has. Every message of the server for a channel is put before the client that announced the number last, with the number the client chose and otherwise unchanged, and before no other; this holds until both sides have closed the channel or the client has ended. A connection to a forwarded port is shown to a client that has asked for this port and address. A packet that cannot be understood ends the client and nothing of it is sent.", "quantifier": "for all sequences of packets of any number of clients, messages of the server and channels of the program itself, in any order", "why_tests_cant": "Different clients choose the same numbers, numbers are used again after channels end, and the outcome depends on how the packets of all of them are interleaved.", "anchors": ["channels.c: channel_proxy_downstream", "channels.c: channel_proxy_upstream", "channels.c: channel_new", "channels.c: channel_by_remote_id", "channels.c: channel_from_packet_id", "channels.c: channel_connect_by_listen_address", "clientloop.c: client_request_forwarded_tcpip"]}
{"id": "C130", "title": "Clients that share a connection as proxies cannot harm each other or the master", "statement": "What one proxy client sends does not change the channels of others. When a client ends, however it does, the server is told to listen no more at its ports, its channels are closed, nothing refers to it any more and nothing is ever put before it again; the channels and ports of others are not changed, and the master goes on. The answer to a global request of a client is given to it.", "quantifier": "for all sequences of packets of any number of clients, ends of clients and messages of the server, in any order", "why_tests_cant": "Depends on when a client ends between the messages of the server, and on clients that send what ssh itself does not.", "anchors": ["channels.c: channel_free", "channels.c: mux_remove_remote_forwardings", "channels.c: channel_proxy_downstream", "channels.c: channel_post_mux_client_read", "nchan.c: chan_mark_dead", "nchan.c: chan_send_close2", "nchan.c: chan_is_dead", "channels.c: channel_garbage_collect", "clientloop.c: client_global_request_reply"]}
{"id": "C131", "title": "While someone types, when packets are sent does not tell when keys were pressed", "statement": "With ObscureKeystrokeTiming, once the first key has been sent, the times at which output is let through are determined by the clock at which the program looks and by random numbers, as long as hiding lasts and there is no X11 connection: they do not depend on when, and how often, keys are pressed. Looking early because a key was pressed lets nothing through and does not change the next time. The times are one interval apart, give or take a tenth at random, or as many intervals as have passed and one if the program was late.", "quantifier": "for all intervals, sequences of calls, states of the output and of channels, and random numbers", "why_tests_cant": "It is a statement about pairs of runs that differ in what is typed, and about all schedules.", "anchors": ["clientloop.c: obfuscate_keystroke_timing", "clientloop.c: set_next_interval"]}
{"id": "C132", "title": "While someone types and for a second or more after, a packet of the same size is sent every interval", "statement": "Hiding begins with the first keys on a terminal. From then on, at each time set for output, something is sent: what was typed, or, if the server knows pings, a packet with as long a payload as one key. It ends only if no terminal is open, keys are being exchanged, more than a few keys are to be sent, or between 1024 and 3072 ms have passed since the last key. There is no chaff otherwise.", "quantifier": "for all states, sequences of calls, and random numbers", "why_tests_cant": "Tests cannot look at all points in time between two keys.", "anchors": ["clientloop.c: obfuscate_keystroke_timing", "clientloop.c: send_chaff", "packet.c: ssh_packet_interactive_data_to_write"]}
{"id": "C133", "title": "Hiding when keys are pressed delays them by little, and X11 by nothing", "statement": "Without the option nothing is held back. With it, output is held back only while hiding is on, until the time set for it, which is no more than an interval and a tenth away. Output is let through earlier if, and only if, an X11 connection has just been used.", "quantifier": "for all intervals, sequences of calls, and channels", "why_tests_cant": "Depends on late wake-ups and on when other channels were last used.", "anchors": ["clientloop.c: obfuscate_keystroke_timing", "clientloop.c: set_next_interval", "channels.c: x11_channel_used_recently", "misc.c: ptimeout_deadline_monotime_tsp"]}
{"id": "C134", "title": "Forwarded ports are listened on where GatewayPorts and the address asked for say", "statement": "Without GatewayPorts, a server listens for remote forwardings only on addresses of the machine itself, whatever a client asks for and in whatever order; with GatewayPorts yes, on all addresses; with clientspecified, on the address asked for, where nothing and `*` stand for all, and `localhost` for the machine itself. A client listens for -L and -D on the address given with the same meaning; if none is given, on all addresses if GatewayPorts is set and otherwise only for the machine itself.", "quantifier": "for all options, addresses, sequences of requests and of their cancelling, and answers of the system and of a resolver that keeps to POSIX", "why_tests_cant": "A listener on the wrong address works as well as one on the right one; tests try a few names and one resolver.", "anchors": ["channels.c: channel_fwd_bind_addr", "channels.c: channel_setup_fwd_listener_tcpip", "serverloop.c: server_input_global_request"]}
{"id": "C135", "title": "An answer says what is listened on, and cancelling ends just that", "statement": "A request to listen is answered with success if and only if something listens for it then. All that listens for it does so at one port, the one asked for or the one that the answer tells. Whatever listens, on a port or a path, does so because of a request that was permitted and has not been cancelled since. Cancelling with the same address and port closes all of this and nothing else, and the answer says if there was anything; so does a client that takes back a local forwarding.", "quantifier": "for all permissions, options, states, sequences of requests, and answers of the system", "why_tests_cant": "Several addresses of which some cannot be had, ports allocated by the system and equal addresses of several requests come together only in some runs.", "anchors": ["channels.c: channel_setup_fwd_listener_tcpip", "channels.c: channel_setup_fwd_listener_streamlocal", "channels.c: channel_cancel_rport_listener_tcpip", "channels.c: channel_cancel_lport_listener_tcpip", "serverloop.c: server_input_global_request"]}
{"id": "C136", "title": "A display is the first that is free on all addresses, and with X11UseLocalhost only the machine itself reaches it", "statement": "The number of a forwarded X11 display is the first from X11DisplayOffset on, below 1000, for which no address is taken. All addresses (up to ten) are listened on, at the port 6000 more than the number; with X11UseLocalhost these are addresses of the machine itself only. If there is no display, nothing is listened on.", "quantifier": "for all offsets, addresses, and answers of the system", "why_tests_cant": "Which displays are taken, on which kind of address, depends on the machine; someone who has one of two addresses of a display gets the keys typed there.", "anchors": ["channels.c: x11_create_display_inet"]}
{"id": "C137", "title": "Known host keys change only the order in which types of host keys are asked for", "statement": "If HostkeyAlgorithms is not set, or only added to or taken from, a client that knows a key of the host for the best algorithm asks for algorithms in the order set; otherwise for those with a known key (or for certificates, if an authority is known) first, and each group in the order set. It asks for the same algorithms in any case, and a list that the user has set is not changed. So if the server still has a key of which the client knows, one of its kind is used.", "quantifier": "for all lists of algorithms, known keys, authorities, revocations and lists of the server", "why_tests_cant": "Tests use one or two keys; which type comes first depends on all that is known for a host and on what the server has lost.", "anchors": ["sshconnect2.c: order_hostkeyalgs", "sshconnect2.c: first_alg", "sshconnect2.c: ssh_kex2", "hostfile.c: lookup_key_in_hostkeys_by_type", "hostfile.c: lookup_marker_in_hostkeys"]}
{"id": "C138", "title": "Fingerprints that look the same are of the same digest", "statement": "The fingerprint of a key is, as hexadecimal, the name of the hash algorithm and all bytes of the digest between colons; as base64, the name and the base64 of RFC 4648 without padding; as Bubble Babble, the encoding of that name between two x. Nothing is cut, and nothing is read or written out of bounds, for a digest of any length allowed. Two keys that show the same fingerprint, in the default form or any of these three, have the same digest, and unless it is Bubble Babble, by the same algorithm.", "quantifier": "for all digests of up to 65536 bytes (of any length for Bubble Babble), names of algorithms without : and =, forms", "why_tests_cant": "That no two digests look alike is about all pairs; tests compare some known fingerprints.", "anchors": ["sshkey.c: sshkey_fingerprint", "sshkey.c: fingerprint_hex", "sshkey.c: fingerprint_b64", "sshkey.c: fingerprint_bubblebabble"]}
{"id": "C139", "title": "The picture of a key shows the walk of its digest", "statement": "The picture of a key has a border, nine rows of 17 places and a border, each line 19 wide, whatever the type, size, algorithm and digest. A place shows E where the walk ends, S in the middle where it begins, and else a letter for how often the walk came there, the same for 14 times or more. The walk reads two bits at a time from the low end and slides along edges; it never leaves the field. The borders give type and size, or the type if both do not fit, and the algorithm.", "quantifier": "for all digests, types, sizes and names of algorithms", "why_tests_cant": "How a walk of 128 or 256 steps meets edges and corners differs for each digest; tests have a handful of pictures.", "anchors": ["sshkey.c: fingerprint_randomart", "sshkey.c: sshkey_fingerprint"]}
{"id": "C140", "title": "Options for a key reach the other process unchanged, or only as far as it may know them", "statement": "Options of a key (from authorized_keys or a certificate) that one process of the server sends to another, trusted, arrive exactly as they were, and what follows in the message is untouched. If the receiver is not trusted, flags, the expiry time and the tunnel arrive, but no string and no list: it cannot tell whether there is a forced command, a list of principals, an environment, a list of addresses or of permitted forwardings, or what is in it.", "quantifier": "for all options with strings without NUL, a time of 64 bits and a tunnel of -1 or a number of 31 bits; for all that follows", "why_tests_cant": "A field left out or in another order shows only for options that use it; that nothing leaks compares all pairs of options.", "anchors": ["auth-options.c: sshauthopt_serialise", "auth-options.c: sshauthopt_deserialise", "auth-options.c: sshauthopt_copy", "monitor.c: mm_answer_keyallowed", "monitor_wrap.c: mm_key_allowed"]}
{"id": "C141", "title": "After authentication the next process goes on where the other one stopped", "statement": "When the process that authenticated hands over the connection, the one that takes over uses in both directions the same cipher, key, next IV, MAC key, sequence number and count of bytes, keeps the session id, whether key exchange is strict and the versions, and loses nothing that had come in or was to be sent. Packets and blocks are counted, and the time to the next key exchange runs, from the handover. Whatever is sent instead, also by a process that has been taken over, is refused without undefined behaviour, or has the session id that the monitor has noted; a state with anything after it is refused.", "quantifier": "for all states of a running connection, tables of ciphers and MACs, times and messages", "why_tests_cant": "A wrong sequence number or IV ends the connection only at the next packet of one cipher; tests run with few ciphers and never with a hostile sender.", "anchors": ["packet.c: ssh_packet_get_state", "packet.c: ssh_packet_set_state", "packet.c: newkeys_to_blob", "packet.c: newkeys_from_blob", "packet.c: kex_to_blob", "packet.c: kex_from_blob", "packet.c: ssh_set_newkeys", "monitor.c: monitor_apply_keystate"]}
{"id": "C142", "title": "A certificate grants what was asked for when it was issued", "statement": "For each permission, the last option on the command line of ssh-keygen that concerns it decides, and `clear` concerns all; if there is none, the default holds. A server that is shown the resulting user certificate grants exactly these permissions, forces exactly that command, allows exactly these addresses, and asks for touch and verification accordingly. Extensions of one's own that it does not know change nothing; a critical option of one's own that it does not know makes it refuse the certificate. Entries stand in the order of their names, each once for each time it was asked for.", "quantifier": "for all lists of options on the command line, principals, times and authorities", "why_tests_cant": "Issuing and reading are different programs with their own lists of names; a slip in one name shows only for that one option, and the order of options has no bound.", "anchors": ["ssh-keygen.c: add_cert_option", "ssh-keygen.c: finalise_cert_exts", "ssh-keygen.c: prepare_options_buf", "ssh-keygen.c: cert_ext_cmp", "auth-options.c: sshauthopt_from_cert", "auth-options.c: cert_option_list"]}
{"id": "C143", "title": "The cookie of the display stays at the client", "statement": "For X11 forwarding the server is told a made-up cookie of the same length as the real one: what it is sent in all sessions of a connection does not depend on the real cookie. All sessions for one display are told the same one; a request for another display over the same connection sends nothing. A connection that begins with the protocol and the made-up cookie reaches the display with the real one in its place. No other memory of the client is sent.", "quantifier": "for all sequences of sessions over a connection, displays, protocols, cookies and random bytes", "why_tests_cant": "That nothing depends on the real cookie compares all pairs of runs; memory read past the cookie looks like a cookie.", "anchors": ["channels.c: x11_request_forwarding_with_spoofing", "channels.c: x11_open_helper", "misc.c: tohex", "mux.c: mux_session_confirm", "ssh.c: ssh_session2_setup"]}
{"id": "C144", "title": "X11 that is not trusted gets a cookie that is not trusted, and for no longer than it lasts", "statement": "Without ForwardX11Trusted the cookie comes only from a file of its own in which one that is not trusted was made before; if any of this fails, nothing is forwarded. The commands that are run have the name of the display as one word, whatever it is, and none is run for a name with other characters than letters, digits and :/.-_. With ForwardX11Timeout connections are refused from before the cookie ends. With ForwardX11Trusted the cookie is what xauth lists for the display, or a random one.", "quantifier": "for all displays, behaviours of xauth, directories and paths of harmless characters, times and timeouts below 2^31 seconds", "why_tests_cant": "A test has no hostile display names to try them all, and no display that tells which cookie was used.", "anchors": ["clientloop.c: client_x11_get_proto", "clientloop.c: client_x11_display_valid", "channels.c: channel_set_x11_refuse_time"]}
{"id": "C145", "title": "A certificate is valid at the times asked for", "statement": "ssh-keygen -V accepts +duration, or from:to where either end is a signed duration, a number in base 16, a date, or always and forever, and nothing else; each end is the time it says, without wrapping. There is always a time at which the certificate is valid. With +duration it ends after that duration and begins between 59 and 118 seconds ago. It is accepted from the first time on and before the second, and at no other time.", "quantifier": "for all texts, all times of the clock from 59 seconds after the epoch to 2^64 - 2^31, and all times of use", "why_tests_cant": "Texts are unbounded, and ends of intervals are where off-by-one mistakes hide; the clock cannot be set to all times.", "anchors": ["ssh-keygen.c: parse_cert_times", "ssh-keygen.c: parse_relative_time", "ssh-keygen.c: parse_hex_u64", "misc.c: convtime", "sshkey.c: sshkey_cert_check_authority"]}
{"id": "C146", "title": "A name that is quoted for sftp is that name", "statement": "Names given to sftp commands in double quotes, in single quotes or with a backslash before each character, where quotes and backslashes inside are escaped, are exactly the arguments that the command gets: as many, in order, each that very name with no wildcard left, for commands that expand patterns and for those that do not. Reading a line leaves neither the line nor the buffer for its arguments.", "quantifier": "for all lists of up to 128 non-empty names of any characters in any way of quoting, of about 8000 characters in all; for safety all lines", "why_tests_cant": "Names and their combinations with ways of quoting are unbounded; that only some characters grow while they are copied shows only near the end of the buffer.", "anchors": ["sftp.c: makeargv", "sftp.c: undo_glob_escape"]}
{"id": "C147", "title": "scp and sftp tell names of remote files from local ones", "statement": "A name given to scp or sftp is that of a remote file exactly if it has a colon with something before it that is no path and does not begin with a colon, and that has neither colon nor open bracket or ends in the bracket that closes it; the first such colon counts. So a name without a colon, one that begins with a colon and one with a slash before all colons are local, and `./` before any name makes it local. user@host:path and user@[host]:path give exactly that user, host and path, with the directory one begins in if the path is empty.", "quantifier": "for all names, users, hosts and paths", "why_tests_cant": "Names are arbitrary strings in which colons, brackets, slashes and signs for users can come in any order; a local file taken for a remote one means a connection to a host that the name of a file chose.", "anchors": ["misc.c: colon", "misc.c: parse_user_host_path", "misc.c: cleanhostname"]}
{"id": "C148", "title": "Every byte of a key derived from a passphrase depends on it, and on the rounds asked for", "statement": "The key for encrypting private keys has the length asked for and does not depend on what was in memory before. Each byte comes from a place of its own in one of as few blocks of 32 bytes as can hold the key: byte d is byte d / s of block d mod s + 1, where s is the number of blocks; a block is the exclusive or of as many hashes of the passphrase as rounds were asked for, each with the one before as salt, the first with salt and number of the block. Empty passphrases and salts, no rounds, and keys of more than 1024 bytes are refused. The derivation ends.", "quantifier": "for all passphrases, salts, lengths of keys, numbers of rounds, and hash functions of 32 bytes", "why_tests_cant": "A byte that is left out or written twice for some length keeps both directions consistent: files are written and read, but the key is weaker.", "anchors": ["openbsd-compat/bcrypt_pbkdf.c: bcrypt_pbkdf", "sshkey.c: sshkey_private_to_blob2", "ssh-agent.c: process_lock_agent"]}
{"id": "C149", "title": "A private key that is kept encrypted in memory is the same when it is needed", "statement": "However often a private key is hidden in memory and taken out again, no call fails, and the key taken out is the one that was put in. While it is hidden, the key holds only its public part, the flags, the random bytes of the last time it was hidden, and the private part, filled up to whole blocks with 1, 2, 3, ..., encrypted under the hash of these random bytes. Something kept that is not of whole blocks, that does not decrypt to a key, or in which another padding follows the key is refused.", "quantifier": "for all keys, all sequences of calls, all random bytes, all contents of memory, and all ciphers and hash functions that keep lengths and can be undone", "why_tests_cant": "Whether a key survives depends on its length modulo the block and on the order of calls; tests sign with a few keys once.", "anchors": ["sshkey.c: sshkey_shield_private", "sshkey.c: sshkey_unshield_private", "sshkey.c: private2_check_padding"]}
{"id": "C150", "title": "Authentication codes of packets are those of RFC 2104, whatever was authenticated before", "statement": "After a key has been given once, each code is HMAC of RFC 2104 under that key (hashed if it is longer than a block, filled with zeros if it is shorter) of exactly what has been added since the code was last begun anew, in any pieces; calls that fail, codes asked for without room, and things added after a code was finished make no difference to later codes. The code of a packet is that of its sequence number and contents, cut to the length agreed upon; one that comes with a packet is accepted exactly if it begins with this code, and refused if it is shorter.", "quantifier": "for all keys, hash functions with values of at most a block and 64 bytes, sequences of calls, packets, and codes received", "why_tests_cant": "State that is left over from one message shows only in later ones; test vectors use a fresh state for each.", "anchors": ["hmac.c: ssh_hmac_init", "hmac.c: ssh_hmac_update", "hmac.c: ssh_hmac_final", "mac.c: mac_compute", "mac.c: mac_check"]}
