# Design

Formal model, in Lean 4, of parts of openssh-portable 10.0p2 (source in /repo), and proofs about it.

## Conventions

* Every area has its own directory `lean/Verif/<Area>/` with
  `Model.lean` (transcription of the C code, each definition citing file and lines),
  `Spec.lean` (small independent specification), `Lemmas.lean` (proof work) and
  `Props.lean` (the property theorems and concrete non-vacuity examples). Small areas merge some of these.
* Bytes are `UInt8`, C strings are `List UInt8` without the terminating NUL. Sizes are `Nat` where the code
  provably stays below the machine range and machine words (`UInt32`, `UInt64`, explicit modulus) where
  wrap-around matters.
* Undefined behaviour, `fatal()` and abort paths are distinct outcomes of the model, not assumed away.
* System calls, clocks, random numbers, allocation failure and cryptographic primitives are parameters or oracle inputs.

## Plan per property

| id | title | model and proof |
|----|-------|-----------------|
| C01 | sshbuf behaves as a bounded byte queue | Concrete model of struct sshbuf (storage list, off, size, alloc, max_size, readonly, refcount) with an explicit `ub` outcome for every out-of-bounds memmove/memcpy; allocation success is a per-call oracle bit. Refinement to an abstract byte list; induction over call sequences. |
| C02 | Wire primitives round-trip and re-encode canonically | Functions over the concrete buffer; round-trip and canonicity theorems through the C01 abstraction. |
| C03 | Buffer readers never consume on failure | Per-reader theorem: error result implies identical state. get_stringb is the known exception (it drops the 4 length bytes when the destination is full): negation proved with a witness. |
| C04 | A derived read-only buffer never sees its parent change | Heap of buffers with parent pointers and reference counts; invariant over arbitrary interleavings. |
| C05 | Wildcard matching means what the manual says | Functional transcription of match_pattern; equivalence with an inductive matching relation. |
| C06 | Negated list entries always win | Transcription with the 1024-byte sub-buffer limit; characterisation by a list-of-entries specification. |
| C07 | Algorithm selection picks the client's first mutual choice | strsep-based transcription with MAX_PROP; characterisation. |
| C08 | Proposal filtering keeps exactly the permitted names in order | Same, fold over strsep fields. |
| C09 | CIDR matching compares exactly the network bits | BitVec/32-bit-word model of xaddr; netmatch iff leading bits equal. |
| C10 | Bitmap is a finite set of bit numbers | Word-array model; refinement to a predicate Nat -> Bool; string round trip. |
| C11 | A revoked serial stays revoked, an unrevoked one is never reported | Ordered range list (the RB tree is abstracted to its in-order sequence); invariant: sorted, disjoint, non-adjacent; membership theorem. |
| C12 | Writing and reading back a KRL revokes the same serials | Generator state machine and parser over the wire model; membership equality. |
| C13 | Both ends of a key exchange agree on every algorithm | Pure model of kex_choose_conf on name lists. |
| C14 | A guessed first packet is discarded exactly when the guess was wrong | Same model. |
| C15 | Packet sequence numbers are never reused under one key | Transport state machine with UInt32 counters; history invariants. |
| C16 | Packet framing is independent of how bytes arrive | Sender/receiver byte-stream model with abstract cipher and MAC given by laws; induction over chunkings. |
| C17 | Tampered packets are never delivered | Same receiver with an arbitrary stream. |
| C18 | Data queued during re-keying is sent once, in order, afterwards | Outgoing queue state machine; history invariant. |
| C19 | Channel data never exceeds the peer's window | Channel window state machine with UInt32 arithmetic; history invariant. |
| C20 | Channel shutdown is orderly | nchan state machine; history invariant over arbitrary events. |
| C21 | A channel number identifies one live channel | Slot table model. |
| C22 | Forwarding restrictions are enforced for every request | Decision logic over permission sets. |
| C23 | Authentication succeeds only through a permitted, successful method | Request-history state machine with an oracle for method results. |
| C24 | All methods of some configured list must be completed | String-list model of method lists; characterisation over success sequences. |
| C25 | Merging authorisation options never widens permissions | Record model; meet-semilattice style theorem. |
| C26 | Certificate acceptance respects time, principal and critical options | Decision logic. |
| C27 | The privileged monitor only answers requests its state permits | Dispatch table model; adversarial request sequences. |
| C28 | The monitor signs off a key only if that key was allowed and the signed data names this session and user | Monitor key state machine plus byte-level parser of the signed blob. |
| C29 | Connection throttling follows MaxStartups | Integer decision logic. |
| C30 | Per-source connection limits are exact | Slot table model, history invariant. |
| C31 | Penalties accumulate, cap and expire as documented | Ordered table model with time. |
| C32 | A locked or constrained agent key is not usable | Agent state machine. |
| C33 | Destination-constrained keys are only usable along permitted paths | Decision logic over session bind lists. |
| C34 | SFTP handles name exactly the open files | Handle table with free list; refinement to a map. |
| C35 | A read-only SFTP server performs no modification | Dispatch table and flag decoding; decision theorem over all messages. |
| C36 | SFTP message processing is independent of stream fragmentation | Framing loop; chunking independence. |
| C37 | An SFTP download reassembles the remote file under any reply order | Nondeterministic-scheduler model of the download loop; invariant over all reply schedules. |
| C38 | A revoked host key is never accepted | Fold over entries; characterisation. |
| C39 | Argument quoting round-trips | Transcription of the tokenizer; round trip. |
| C40 | Time specifications parse exactly or are rejected | Transcription with int overflow checks; characterisation by digits/units specification. |
| C41 | Percent expansion is single pass and total | Transcription; characterisation. |
| C42 | Full transfers despite partial I/O | Loop over an oracle list of syscall results. |
| C43 | Poly1305 computes the specified polynomial | 26-bit limb model over 32/64-bit words; ring congruence proof. |
| C44 | ChaCha20 en/decryption is an exact keystream XOR | 32-bit word model; XOR keystream equality. |
| C45 | Configuration: first obtained value wins | Abstract option store model. |
| C46 | User allow/deny lists: deny wins and allow lists are exhaustive | Decision logic. |
| C47 | Message signatures verify only for the same namespace, hash and message | Byte-level model with hash and signature as parameters. |
| C48 | Private key files round-trip and padding is checked | Byte-level model with cipher as parameter. |
| C49 | Terminal modes survive the wire | Byte-level model. |
| C50 | scp never writes outside the target directory by name | Record parser and name filter. |
| C51 | Address lists | Same model as C09, with text parsing given (inet_pton is a parameter); characterisation by a specification of entries. |
| C52 | ssh-keyscan expands a CIDR range to its addresses | do_host over the address model; addresses as numbers, induction on the distance to the end. Parsing and printing of addresses are parameters. |
| C53 | Both ends derive matching session keys | derive_key as repeated hashing; equality with the RFC 4253 section 7.2 recursion. |
| C54 | Algorithm list settings | kex_assemble_names over the matcher of C05/C06. |
| C55 | Padding hides the length of passwords | Sender of C15 with the padding request; equality of lengths within a block of 64. |
| C56 | Channel data arrives complete and in order | Two ends of the channel machine of C19/C20 joined by queues. |
| C57 | Channel window credit is conserved | Ledger over the same machine. |
| C58 | One keyboard-interactive request, one verdict per device | Device loop, induction over the client's list. |
| C59 | Options in front of an authorized key | Transcription of sshauthopt_parse against a grammar of option texts. |
| C60 | Host keys sign only for this session | Monitor machine of C27. |
| C61 | Listener accounting | Event machine of sshd's main loop. |
| C62 | Replacing known_hosts entries | hostfile.c writing, over the line grammar of C38. |
| C63 | Base64 | Transcription against RFC 4648 stated with 24-bit numbers. |
| C64 | chacha20-poly1305 opens exactly what carries the right tag | C43 and C44 composed. |
| C65 | What scp sends is what scp receives | source/rsource and sink joined. |
| C66 | Braces in a requested name | Transcription with fuel, characterisation. |
| C67 | Allowed signers files | Line parser and decision, against a grammar of lines. |
| C68 | Every SFTP request is answered once | Message loop of C36. |
| C69 | SFTP success means it was done | Call log of the handlers. |
| C70 | SFTP attributes survive the wire | Round trip. |
| C71 | A download that stops early leaves a beginning | Loop of C37 with failing writes. |
| C72 | An upload that reports success has stored the file | Upload loop with any server. |
| C73 | A recursive download stays below its destination | Recursion over any server listing. |
| C74–C76 | Host blocks, Match blocks, Include of the client | readconf.c as an interpreter of files; refinement to a denotational reading of blocks. |
| C77–C80 | Server configuration | servconf.c, both passes; characterisation of the value in force; subsystem tables with an out-of-bounds outcome. |
| C81–C82 | Host key decision and records of the client | check_host_key as a sequence of passes; exact condition for acceptance; what is written. |
| C83 | Announced host keys | client_input_hostkeys to update_known_hosts over the file model of C62. |
| C84 | The exchange hash | The two buffers built by kexgen.c and kexgex.c, compared with the RFC text and shown injective. |
| C85 | Strict key exchange | One end as a state machine over packets with the real dispatch table; a phase invariant gives the exact list of packets. |
| C86 | Authenticated key exchange | The same machine with a record of each completed exchange; invariant over all events and any number of exchanges; two machines compared under assumptions on signatures and hashes. |
| C87 | Groups for group exchange | Parsing of a line, both passes over the file as folds with an invariant; public values via the number of one bits. |
| C88 | Identification strings | The reading loop over a list of bytes, equivalence with a description of the stream; `sscanf` as in glibc; the table of patterns as it stands. |
| C89 | Curve25519 | Every function of smult_curve25519_ref.c on 32-bit words; bounds and values of the limbs; the ladder as an invariant over points of Mathlib's Weierstrass curves; primality of 2^255-19 and of the order of the base point by Pratt certificates. |
| C90 | PubKey | The parsers and writers of all five kinds of keys and of certificates, function by function; acceptance proved equivalent to a relational description of the layouts (C90_plain, C90_certificate), from which the rest follows by cancelling encodings. The last sentence is false (C90_canonical_false). |
| C91 | PubKey | All verification functions down to the primitives, which are parameters; acceptance proved equivalent to an inductive description per algorithm (C91_verify). The last sentence holds for RSA apart from one name (C91_rsa) and wherever the type of the signature is checked too (C91_both), and is false otherwise (C91_algorithm_false). |
| C92 | Exch | EXT_INFO as part of the model of the exchange; acceptance and effect characterised by a list of entries (C92_received), by induction over the entries. |
| C93 | Dyn | The decoders function by function on growing buffers; each shown to be a function of the bytes whose decisions more bytes do not change, and equivalent to inductive descriptions of the requests; the statement follows by an invariant over the pieces. The last sentence is false (C93_mixed_false, C93_nul_false); the peculiarities are part of the description in C93_target. |
| C94 | Dyn | x11_open_helper on growing buffers; acceptance equivalent to an inductive description of the first message (C94_passed), by cancelling encodings. |
| C95 | UserKey | user_key_allowed and below over an abstract file system, lines and certificates as in KeyOpts; both directions against the inductive description Accepts; C95_strict combines it with C96. |
| C96 | UserKey | safe_path and dirname byte by byte; canonical paths are shown to be cut component by component, and the walk by induction equivalent to a statement on all directories on the way (C96_trusted); Unix permissions as specification (C96_nobody). |
| C97 | UserKey | userauth_pubkey over abstract parsing and verification of keys; equivalence with the inductive descriptions Request and Signed (C97_accepted, C97_query); what is signed is injective by cancelling encodings (C97_binding). |
| C98 | HostBased | userauth_hostbased and hostbased_key_allowed over abstract keys, known hosts by the theorems C38; equivalence with descriptions of the request and of trust (C98_accepted, C98_allowed); C98_binding by cancelling encodings. The last sentence is false (C98_critical_false, C98_second_false). |
| C99 | HostBased | check_rhosts_file from fgets and sscanf upwards; equivalence with a declarative description of lines and entries (C99_trusted), pieces are lines if these are short (C99_lines). Comments: false for long lines (C99_comment_false). |
| C100 | HostBased | valid_request read by read; equivalence with the inductive description Signable (C100_valid), and combination with what the server checks (C100_honest). |
| C101 | Show | vasnmprintf with the decoding, the widths and the judgement of the locale as parameters, memory growth included; each piece is a step of a fold over the reading of the text (C101_shown); C101_clean by induction over the reading. |
| C102 | Show | vis with all its flags and strnvis byte by byte; the pieces for the two sets of flags by evaluation over all bytes (C102_log, C102_stderr), injectivity because no piece begins another. |
| C103 | Session | All requests on a session channel from the bytes of the request on, do_exec and the decision in do_child; starting processes is an answer of the system. C103_step is an equivalence with the relations Asks and Meant, the rest by induction over sequences of requests. |
| C104 | Session | child_set_env with its array and sizes (a write beyond it is an outcome), all sources in order; an invariant relates the array to a list of distinct names, and this to the list of assignments (C104_last); non-interference follows. |
| C105 | Session | safely_chroot over any answer of stat; the input of xauth from the state reached by any requests (C105_xauth). |
| C106 | CliAuth | The dispatch table during user authentication with the three methods and their counters; an invariant over all runs. C106_batch_partial: batch mode may ask for the PIN of a security key (C106_batch_original_false). |
| C107 | CliAuth | pubkey_prepare with its order of keys, userauth_pubkey; the number of keys not tried yet plus the offers made is a potential that only partial success increases (C107_once). |
| C108 | CliAuth | sign_and_send_pubkey with the search for a private key; agent, files and tokens answer anything. C108_agrees connects with the server side (C97). Partial: a private key known by its file name only is not compared with the certificate (C108_signs_original_false) and a signature of the wrong type crashes the client then (C108_crash_original_false). |
| C109 | CliAuth | step is compared with the relation Answers, which says for each message what may be done. |
| C110 | Sandbox | The table of instructions with its macros, and the kernel's machine that runs it; the program is executed symbolically, block by block, and compared with a list of permitted and refused calls. |
| C111 | Uid | The three functions over the credentials of Linux (for one theorem over any kernel), every call may fail; an invariant over all orders of calls. |
| C112 | Loop | The handlers of messages outside of sessions over Permit, as a function of all messages; each act is traced back to a message that entitles to it (a relation on bytes), and conversely. |
| C113 | Loop | The same for the client, over the history of its remote forwardings (C22). |
| C114 | Loop | The loop over characters; invariant: `last_was_cr` says whether what was sent ends in a newline. |
| C115 | Loop | The queue with counts is related to a plain queue; the counter of timeouts to runs of silence. |
| C116 | Loop | The function itself; names by the relation `Glob` of C05. |
| C117 | Dns | The loop over the records with its flags and what the client does with them, against records that confirm or contradict a key; composed with the check of C81. |
| C118 | Dns | The printing of the lines, against the formats of the RFCs; printed records are put through the check of C117. |
| C119 | Dns | The parser with reads outside of the message and through null pointers as undefined behaviour; equivalent to a grammar of messages. |
| C120 | Target | Canonicalisation with the resolver as a parameter, equivalent to rules for the name that is used; corollaries for what names are possible at all. |
| C121 | Target | The parsers against small grammars; the order of hops by induction over the commands each client starts. **Partial**: the order is proved for lists without blanks, comments and a first hop called none; it fails with a blank or comment (witness). |
| C122 | Target | A reader of shell commands with quotes as the specification. **Partial**: proved for hosts and aliases; false for users (new line) and for jump hosts (nothing is checked), with witnesses. |
| C123 | Mux | Induction over runs of the state machine of a control connection: answers and requests as lists of numbers. **Partial**: the program does end with an error or worse for some requests to open or close forwardings (witnesses); proved that only these, and wrong answers of the server, do so. |
| C124 | Mux | For every step: whatever is done follows a question, whose text is given by rules for each kind. **Partial**: no question for a proxy or for closing forwardings, and the question for dynamic forwardings leaves out a destination (witnesses). |
| C125 | Mux | The request as a grammar; invariants over runs for variables, agent, X11 and the number of channels. |
| C126 | Mux | The encoding of the client read back by the model of the master; the loop for the exit status against a grammar of messages. **Partial**: cancel and -W end with 0 even if they fail (witnesses). |
| C127 | Mux | All outcomes of opening and closing as relations between tables; an invariant for tables without duplicates. **Partial**: entries of closed forwardings are taken for a dynamic one without port and destination, and closing succeeds if nothing listened (witnesses). |
| C128 | Mux | Invariant of the reader over arbitrary sizes of reads; uniqueness of the framing, and progress. |
| C129 | Proxy | Invariant over all runs: for each channel of a client, the last message to the server that gave its number is the one in which this client announced its own. |
| C130 | Proxy | One relation for what a step can change, from which the invariants follow: references are to clients, a client that has gone is referred to by nothing. **Partial**: a client can close channels of others by their number at the server, a client that is cut off leaves dangling references, one that leaves early ends the master, and answers to global requests go to the master (witnesses); proved without these. |
| C131 | Pace | Noninterference: the times are a function of clock and random numbers, by induction over calls; bounds by arithmetic. |
| C132 | Pace | For each call, from conditions stated apart. |
| C133 | Pace | **Partial**: the test for X11 is the wrong way round and a program that is late waits once more for the time it has lost (witnesses); the delay is bounded if the program is never late by an interval, and output is early only if there is an X11 connection that has been used at some time. |
| C134 | Listen | Invariant over all requests to a server; for a client, per call. The resolver is a parameter with a contract (`Posix`). |
| C135 | Listen | **Partial**: per request, and by induction over sequences where listeners come from. False for ports above 65535, which can be listened on but not cancelled, and for what a client closes (witnesses). |
| C136 | Listen | **Partial**: by induction over displays and over addresses. If listening fails for one address, others stay (witness). |
| C137 | HostAlg | **Partial**: the loop over names computes two filters, by induction with room for all of them in the buffers; with C07, what is negotiated. The last clause is false if the server has lost the best key, or if a key of the type is revoked (witnesses). |
| C138 | Finger | the loops compute separate specifications (Bubble Babble as a relation; `Rfc` from C63; `join`), by induction with room in the buffers; these are shown injective. |
| C139 | Finger | **Partial**: the walk as a list of places on natural numbers; by induction the field holds, at each place, how often the walk came there, up to 14. Also proved: digests that differ only in the direction of going round a square have the same picture. A title of exactly 17 letters is cut (witness). |
| C140 | Handover | reading what was written, field by field; for the untrusted receiver, the message is that of options without the strings. |
| C141 | Handover | **Partial**: reading what was written, field by field, with the IV of the running cipher; for hostile messages by cases. Not refused: sizes of blocks of 0 or from 32 on, and short keys for UMAC, are used (witnesses). |
| C142 | Issue | the options by induction over the command line against a small table of what each option says; the certificate by reading what was written, with the reading modelled in KeyOpts, counting entries so that their order does not matter. |
| C143 | Cookie | **Partial**: two runs that differ in the real cookies are related step by step; the opening of connections is that of C94. False as meant: a longer cookie in a later session (witness). |
| C144 | Cookie | by cases over what xauth does; the commands as a shell reads them, with the reading of C122. |
| C145 | Issue | both directions against an inductive description of what is accepted; durations as in C40; the check of certificates as in KeyOpts. |
| C146 | Argv | induction over names and characters against a separate description of quoting and of patterns; safety by an invariant on the bytes used; two witnesses where safety fails. |
| C147 | Operand | equivalence with a declarative description of where a name is split (soundness and completeness of the loop by induction); both ways of writing a name by that. |
| C148 | Kdf | invariant on the bytes that are left after each block, with quotient and remainder of the length by the number of blocks; blocks against a chain as in PBKDF2. |
| C149 | Shield | induction over the calls with the invariant that the key is whole or hidden under the random bytes of the last call; the test for taking it out as an equivalence. |
| C150 | Hmac | invariant: both halves of the key stay as they are, and the hash that is open holds the first half and what was added; induction over calls; HMAC stated byte by byte as in RFC 2104. |

## Trusted base

* Lean's kernel. Axioms allowed: `propext`, `Classical.choice`, `Quot.sound`. No others, no `sorry`, no `native_decide`,
  no `bv_decide`. `AXIOMS.md` lists the axioms of each theorem named in the manifest (output of `#print axioms`).
* The faithfulness of the hand transcription from C to Lean. Each definition cites the file and lines it stands for.
* Where a primitive is a parameter (hashes, ciphers, signatures, key parsing, system calls, name lookup, the clock, memory
  allocation), theorems hold for every value of the parameter that meets the hypotheses written in the statement.

## What is modelled, and what is not

By directory of `lean/Verif`. What is not named under "modelled" is not modelled.

| area | modelled | left out or simplified |
|------|----------|------------------------|
| SshBuf | sshbuf.c, sshbuf-getput-basic.c (buffers, sharing, reference counts, allocation failure) | dumping, bignums of libcrypto, EC points |
| Match, Addr, Access | match.c, addr.c, addrmatch.c, groupaccess.c, `allowed_user`, `match_user`, ssh-keyscan.c `do_host` | getaddrinfo/inet_pton (parameter), host names longer than NI_MAXHOST, account expiry of shadow files |
| Bitmap, Krl | bitmap.c; krl.c building, generating, reading, checking | KRL signatures, extensions beyond skipping them, key parsing and digests (parameters) |
| Kex | kex.c `kex_choose_conf` and its helpers, `derive_key`, `kex_derive_keys`; kex-names.c | see Exch |
| Exch | kex.c sending and receiving of KEXINIT, NEWKEYS and EXT_INFO; kexgen.c, kexgex.c, kexgexc.c, kexgexs.c; dispatch.c; the message part of packet.c's `ssh_packet_read_poll_seqnr` | the primitives and the trust decision (parameters), identification strings, what triggers re-keying, messages of user authentication and channels |
| Dh | dh.c `parse_prime`, `choose_dh`, `dh_new_group_fallback`, `dh_pub_is_valid`, `dh_gen_key`, `dh_estimate` | opening and reading the file, the big-number library, the constants of the fixed groups |
| Banner | kex.c `kex_exchange_identification`; compat.c | waiting and time-outs (the stream ends), messages sent after failures |
| Curve25519 | smult_curve25519_ref.c; kexc25519.c `kexc25519_keygen`, `kexc25519_shared_key_ext` | randomness of the private value, encoding of the secret as an mpint (Exch), the hybrid methods |
| PubKey | sshkey.c `keyimpls`, `type_from_name`, `sshkey_ssh_name_from_type_nid`, `sshkey_from_blob`, `cert_parse`, `sshkey_to_blob`, `sshkey_certify_custom`, `sshkey_verify`, `sshkey_check_sigtype`, `sshkey_sigalg_by_name`; ssh-rsa.c, ssh-ecdsa.c, ssh-ed25519.c, ssh-ecdsa-sk.c, ssh-ed25519-sk.c: reading and writing public keys, `*_verify`; sshbuf-misc.c `sshbuf_dtourlb64` | the primitives (RSA, ECDSA, Ed25519, SHA-256, membership of the curve) and signing are parameters; private keys; short names of key types; allocation failure |
| Packet | packet.c sending and receiving, re-keying, sequence numbers, discard, padding | compression, mux reader, incoming hook, keepalive and DISCONNECT handling of `read_poll_seqnr`, limit of the input buffer |
| Chan | channels.c tables, windows, data, shutdown; nchan.c | filters, proxied multiplexing, listeners, RDYNAMIC, timeouts, the 128 MB limit of buffers |
| Permit | channels.c permissions, `PermitOpen`/`PermitListen` texts, servconf/auth-options checks of them | getservbyname (parameter), connecting and listening, downstream mux entries, SSH_BUG_DYNAMIC_RPORT |
| Auth | auth2.c, auth2-chall.c, method tables and lists | GSSAPI, what the individual methods check (oracle) |
| KeyOpts | auth-options.c, auth2-pubkeyfile.c, principals files, `sshkey_cert_check_authority` | signature of certificates (a flag), fingerprints |
| Monitor | monitor.c both loops with every request, monitor_wrap where needed | GSSAPI, KRB5, audit; back ends are oracles |
| Startup | sshd.c listener accounting, srclimit.c, `should_drop_connection` | the two penalty trees are one list, times unbounded, one peer answer per socket |
| Agent | ssh-agent.c requests, constraints, binding, locking, expiry | framing, delay on unlock, XMSS, keys that cannot be serialised |
| Misc | misc.c (argument vectors, durations, expansion, delimiters), atomicio.c, base64.c, ttymodes.c | results over 128 MB |
| Crypto | poly1305.c, chacha.c, cipher-chachapoly.c | the libcrypto variant |
| Hostfile, HostKey | hostfile.c; sshconnect.c `check_host_key`, `verify_host_key`; clientloop.c host key update | reading certificates, DNS lookup, KnownHostsCommand, fingerprints (parameters); messages; interrupted updates; unreadable files |
| Scp | scp.c sink, source, rsource, brace expansion | bandwidth limit, progress, remote execution |
| Sftp | sftp-server.c all requests, sftp-common.c attributes, sftp-client.c download, upload, recursive download | logging, ls text, statvfs encoding (answers), end of input on the server, recursive upload |
| Sig | sshsig.c signing, verifying, armor, allowed signers | buffer limits, hashing files, key parsing, absolute times (parameters) |
| PrivKey | sshkey.c OpenSSH private key format | PEM, shielding, encodings of types other than Ed25519 (parameters) |
| Conf | readconf.c `process_config_line_depth`, `match_cfg_line`, `read_config_file_depth`, keyword table | GSSAPI; forward and algorithm syntax (parameters); defaults; a bad line gives up at once |
| SrvConf | servconf.c parsing (both passes), Match, Include, copying, defaults where they matter | `-p`, assembling algorithms, KRB5/GSSAPI |
| Dyn | channels.c `channel_decode_socks4`, `channel_decode_socks5`, `channel_pre_dynamic`, `x11_open_helper`, `channel_pre_x11_open`. Simplified: printing of addresses is a parameter and does not fail; the user string of SOCKS4 only serves a debug message and is left out. |
| UserKey | misc.c `safe_path`, openbsd-compat/dirname.c, auth2-pubkeyfile.c `auth_openfile`, auth.c `expand_authorized_keys`, auth2-pubkey.c `user_key_allowed` and below, `userauth_pubkey`. Simplified: file system, glob, `%` expansion, commands run, parsing of keys and verification are parameters; privilege separation and memory failures are left out; a path longer than PATH_MAX (fatal) is not modelled. |
| Show | utf8.c `vasnmprintf` (allocation succeeds, `int` does not overflow), `vfmprintf`, `snmprintf`; openbsd-compat/vis.c (the copy of the portable version, with `isgraph` of the C locale); log.c `do_log` from the formatted message on, without the name of the program. |
| Session | session.c `do_exec`, `do_child` (which program), `child_set_env`, `read_environment_file`, `copy_environment_denylist`, `do_setup_env` (Linux with PAM, without Kerberos, AIX and Cygwin parts and login.conf), `do_rc_files`, `safely_chroot`, `xauth_valid_string`, the request handlers, `session_setup_x11fwd`, `session_auth_agent_req`. Not: pseudo-terminals, pipes and processes, logins records, exit status, `do_setusercontext`. |
| CliAuth | sshconnect2.c `ssh_userauth2` (the dispatch table), `userauth`, `authmethod_get`, `authmethod_lookup`, `input_userauth_*`, `userauth_passwd`, `input_userauth_passwd_changereq`, `userauth_kbdint`, `input_userauth_info_req`, `userauth_hostbased`, `userauth_pubkey`, `send_pubkey_test`, `load_identity_file`, `sign_and_send_pubkey`, `identity_sign`, `key_sig_algorithm`, `key_type_allowed_by_config`, `try_identity`, `pubkey_prepare`, `pubkey_reset`. Not: GSSAPI, the hostbased helper process (its signature is an answer of the world), adding keys to the agent, restricting agent keys, extension info (C81). |
| Sandbox | sandbox-seccomp-filter.c (the filter with all its macros, `ssh_sandbox_child`). The semantics of the kernel's classic BPF machine is modelled from its documentation; which numbers system calls have is a parameter with the hypothesis that they differ. Not: the other sandboxes, `SANDBOX_SECCOMP_FILTER_DEBUG`. |
| Uid | uidswap.c (all; with `SAVED_IDS_WORK_WITH_SETEUID`, not Cygwin, not macOS). The semantics of the system calls is modelled from the manual of Linux. Not: `skprivs`-like capabilities, user namespaces, setfsuid. |
| Loop | serverloop.c (`server_input_channel_open`, `server_input_global_request`, `server_input_channel_req`, the functions they call, `client_alive_check`), clientloop.c (`client_input_channel_open`, `client_input_global_request`, `process_escapes`, the queue of confirmations, `server_alive_check`, `client_session2_setup`), channels.c `connect_to_helper` as far as the path of a socket. What the system and other modules answer (is there an agent, does a connection begin, the numbers of channels) is a parameter for each message. Not: the poll loops, `process_cmdline`, window changes, the terminal modes, mux proxies. |
| Dns | dns.c (all but the texts of errors), sshconnect.c:1538-1562, openbsd-compat/getrrsetbyname.c (all from the answer of `res_query` on, with `HAVE_HEADER_AD`; names and ttl are not kept). `dn_expand`, `res_query`, `getaddrinfo` and the digests are parameters. Not: getrrsetbyname-ldns.c, failing allocations. |
| Mux | mux.c but for the set-up of the listening socket (`muxserver_listen`) and of terminals and signals: the handlers of the master, confirmations, the client with its commands; readpass.c `ask_permission`; channels.c `read_mux`, `channel_post_mux_client_read`. Parameters: the answers of the user, passed descriptors, numbers of channels, whether listening and asking the server succeeds, the cookie for X11. Writing succeeds and memory suffices. Other control connections appear as changes of the tables of forwardings. A signal that ends the client is a flag; a signal while -W waits is not modelled. Not: the proxy after it is established, the check of the user at the socket. |
| Proxy | channels.c `channel_proxy_downstream`, `channel_proxy_upstream`, `channel_by_remote_id`, `channel_free` and `mux_remove_remote_forwardings` for clients, the choice of numbers in `channel_new`; clientloop.c `client_global_request_reply` and forwarded-tcpip for clients; nchan.c for channels of clients that have gone. A serial number stands for the address of a channel, so that a dangling pointer is seen. Channels of the program itself take numbers and announce them but are not followed otherwise. Packets of clients come whole (`Verif.Mux`, C128). The limit of 10011 channels appears as a bound that is far greater. |
| Pace | clientloop.c `obfuscate_keystroke_timing`, `set_next_interval`, `send_chaff`; channels.c `x11_channel_used_recently`; packet.c `ssh_packet_interactive_data_to_write`. Parameters of each call: the time (in ns), random numbers, the length of the output buffer, whether a terminal is open, whether keys are exchanged, channels with their last use. That output is written only when it is let through (clientloop.c:709-716, 1605-1613) is read off the loop, not modelled; nor are the delays of the network. |
| Listen | channels.c `channel_fwd_bind_addr`, `channel_setup_fwd_listener_tcpip`, `channel_setup_fwd_listener_streamlocal`, `channel_setup_local_fwd_listener`, `channel_setup_remote_fwd_listener`, `channel_cancel_rport_listener_tcpip`, `channel_cancel_rport_listener_streamlocal`, `channel_cancel_lport_listener_tcpip`, `channel_cancel_lport_listener_streamlocal`, `x11_create_display_inet`; serverloop.c `server_input_global_request` for forwardings. Permissions are those of Permit. The answers of getaddrinfo(), socket(), bind() and listen() come with each call. Not modelled: debug messages (one for all addresses when GatewayPorts is off among them), connections that are accepted, the lookup of port numbers by name. |
| HostAlg | sshconnect2.c `order_hostkeyalgs`, `first_alg`, `ssh_kex2` as far as it chooses the list. The keys known for the host are the list of Hostfile. What sshkey.c says of names of algorithms is a parameter. Not modelled: reading the files and KnownHostsCommand (see Hostfile), `kex_assemble_names` (its result is a parameter). |
| Finger | sshkey.c `fingerprint_b64`, `fingerprint_hex`, `fingerprint_bubblebabble`, `fingerprint_randomart`, `sshkey_fingerprint`. The digest, the name of its algorithm, the type and size of the key are inputs (that the digest is of the public key and nothing else: `sshkey_fingerprint_raw` is not modelled). Writing out of an array or buffer is `none`. Not modelled: lack of memory; `snprintf` does not fail. |
| Handover | auth-options.c `serialise_array`, `deserialise_array`, `serialise_nullable_string`, `deserialise_nullable_string`, `sshauthopt_serialise`, `sshauthopt_deserialise`, `sshauthopt_copy`; packet.c `kex_to_blob`, `newkeys_to_blob`, `ssh_packet_get_state`, `kex_from_blob`, `newkeys_from_blob`, `ssh_packet_set_state`, `ssh_set_newkeys`, `ssh_packet_enable_delayed_compress` (that compression is on); monitor.c `monitor_apply_keystate`; mac.c `mac_init`, cipher.c `cipher_init` and `cipher_get_keyiv` as far as lengths go. Tables of ciphers and MACs are parameters; a cipher is its name, key and next IV. Not modelled: lack of memory; a packet of which the first block is decrypted (none is when the state is handed over); the compressors themselves. |
| Issue | ssh-keygen.c `add_cert_option`, `cert_ext_add`, `cert_ext_cmp`, `finalise_cert_exts`, `prepare_options_buf`, `parse_relative_time`, `parse_hex_u64`, `parse_cert_times` (dates are a parameter). `fatal` is a result; sorting is insertion sort, with the comparison of the code. Not modelled: principals, serial numbers, signing (the key itself: areas PubKey, Krl). |
| Cookie | clientloop.c `client_x11_display_valid`, `client_x11_get_proto`; channels.c `x11_request_forwarding_with_spoofing`; misc.c `tohex`. xauth, `mkdtemp`, random bytes, the clock and `sscanf` of two digits are parameters; letters and digits are those of ASCII. Removing the file afterwards is left out. |
| Argv | sftp.c makeargv and undo_glob_escape. Not modelled: which argument of which command is a pattern (parse_args), and the quote that is reported to the completion of names. |
| Operand | misc.c colon, cleanhostname and parse_user_host_path. URIs are in Target. |
| Kdf | openbsd-compat/bcrypt_pbkdf.c bcrypt_pbkdf. SHA-512 and bcrypt_hash (Blowfish) are parameters. |
| Shield | sshkey.c sshkey_shield_private, sshkey_unshield_private. Encodings of keys, SHA-512 and AES are parameters; there is always memory; that freed memory is wiped is not modelled. |
| Hmac | hmac.c ssh_hmac_start, ssh_hmac_init, ssh_hmac_update, ssh_hmac_final; mac.c mac_compute and mac_check for SSH_DIGEST. Hashes are parameters; UMAC is not modelled; to add to a hash that is finished is taken to fail. |
| Target | ssh.c:253-523 (canonical names), 634-667 (`valid_hostname`, `valid_ruser`), 1118-1166 (the destination), 1238-1274, 1337-1355 (the command for a jump host); misc.c `rtrim`, `valid_domain`, `urldecode`, `parse_uri`, `parse_user_host_port`; readconf.c `parse_jump`, `parse_ssh_uri`, `config_has_permitted_cnames`. The resolver, service names and the C locale are parameters or assumed. Not: second reading of the configuration for the new name, proxies that give up their name (`reset` of jump hosts to themselves), getaddrinfo itself. The shell of the specification leaves out patterns of file names, `~`, comments and line continuation. |
| HostBased | auth-rhosts.c, auth2-hostbased.c, auth.c `check_key_in_hostfiles`, ssh-keysign.c `valid_request` and the rest of `main` from reading the message. Simplified: file system, netgroups, name lookup, parsing and verification of keys are parameters; privilege separation is left out; strings in the passwd entry contain no NUL. |

## Disagreements found between the code and what one would rely on

Each is proved of the model by a theorem (named), or noted as an observation made while transcribing.

* **sshbuf**: after `sshbuf_set_max_size(n < 256)`, `sshbuf_reset` reallocates to 256 bytes, above the maximum, and the next
  call aborts (`C01_reset_small_max_breaks`). `sshbuf_get_stringb` consumes the length before failing (C03). Readers that
  allocate consume before reporting ALLOC_FAIL.
* **match**: an entry of 1023 or more characters ends the list without a match; `match_list` stops at the first empty name and
  looks at 40 names of the server only (`C13_long_list_false`).
* **addr**: IPv6 scope identifiers are compared (`C09_scoped_address_false`). `addr_match_cidr_list` loses an error if a later
  entry matches (`C51_cidr_error_lost`).
* **krl**: bitmap sections over 2048 bytes are written but refused when read (`C12_unreadable`).
* **packet**: an unsolicited NEWKEYS under strict key exchange resets the read counter without new keys (observation).
* **key exchange**: in strict mode the packet skipped because of a wrong guess may be of any type with a handler, even NEWKEYS,
  which resets the read counter first (packet.c:1784, dispatch.c:107-110); group exchange leaves a bound of 2^32-1 out of the
  hash (kexgex.c:79-81, so C84 excludes it); kexgexs.c:184 takes a positive error code of `sign` for success (observations).
* **channels**: an empty data packet resets the excess counter (`C19_recv_false`); extended data for a closed descriptor is
  never credited (`C57_leak`); cleaning up an unconfirmed multiplexed session is fatal (`C20_opening_cleanup_fatal`);
  datagram channels count differently at the two ends (observation).
* **permissions**: Unix-socket listening ignores PermitListen; `permitlisten="[::1]/80"` ends the session
  (`C22_permitlisten_slash_fatal`).
* **key options**: merging drops the second set's expiry and lists (`C25_expiry_lost`, `C25_lists_lost`); a comma inside a
  certificate principal matches any part (`C26_comma_in_name`); nameless certificates match a plain cert-authority line
  (`C26_nameless`).
* **monitor**: two keys bound to different commands lead to a NULL pointer (`C27_clash_crashes`); when no group is found
  `mm_answer_moduli` sends no answer (observation).
* **listener**: sshd.c:1103-1111 closes a child after login without `srclimit_done`, so slots of a source are used up
  (`C30_login_keeps_slot`, `C30_exhausted`). A first penalty is not capped (`C31_first_uncapped`).
* **agent**: an expired key works until the next round (`C32_expired_false`); a session id over 128 bytes is answered with
  success but not recorded (`C33_long_sid`); an empty destination list leaves the key unconstrained (`C33_empty_restriction`).
* **misc**: empty arguments vanish when assembled (`C39_empty_lost`), `#` arguments truncate (`C39_comment_lost`); a count
  after a permanent error is 0 (`C42_error_count_false`), a vector starting with an empty buffer stops at once
  (`C42_vector_empty_first`).
* **known hosts**: `@revoked` followed by a tab is silently ignored (`C38_tab_ignored`); a last line without newline may take
  its key from stale buffer contents (`C38_stale_buffer`); hashed names are written in lower case but compared as given
  (`C62_hashed_case`); replacing removes lines shared with other hosts (`C62_shared_line_lost`).
* **host key decision**: revocation for the address only, or for the bare name with another port, is not seen
  (`C81_address_revoked_false`, `C81_port_revoked_false`); a certificate of an unknown authority skips the address check
  (`C82_certificate_skips_address`); a key is recorded and the connection refused (`C82_recorded_and_refused`); NULL pointer
  at sshconnect.c:1305-1307 (`C82_null_pointer_false`).
* **host key update**: with a missing first file all keys of the host are removed (`C83_first_missing_false`); keys of
  algorithms not accepted now are removed (`C83_algorithms_false`); a key listed for the address only is listed for the name
  without proof (`C83_address_false`).
* **terminal modes**: control character 255 (`C49` witnesses), CS7 on Linux.
* **scp**: set-user-id bits of the peer are kept without -p (`C65_setuid`); `{a,}` expands to `a,` (`C66_trailing_comma`).
* **sshsig**: find-principals ignores negation for certificate lines (`C67_find_negated`).
* **private keys**: the second public half of an Ed25519 key is not compared (`C48_halves_false`).
* **sftp-server**: a message shorter than its contents is executed before the server ends (`C36_overrun_false`); a queued
  message may wait (`C36_waiting`); copy-data reports success after a failed last chunk (`C69_copy_false`).
* **sftp client**: file cut beyond a hole (`C71_prefix_false`); failing truncation reported as success (`C37_truncate_false`);
  a refused write is forgotten (`C72_refusal_lost`), refused writes stay below the cut (`C72_refused_kept`), an interrupted
  upload reports success (`C72_interrupt_success`).
* **readconf**: `none` times count as unset (`C45_none_false`), SyslogFacility and StreamLocalBindMask count in blocks that do
  not apply (`C45_facility_false`, `C45_mask_false`), a later ForwardAgent names the socket (`C45_agent_false`), commands of
  `Match exec` in files included by a block that does not apply are run (`C76_inactive_false`).
* **servconf**: `none` in a Match block (`C77_none_false`, `C77_timeout_none_false`); uninitialised IPv6 mask
  (`C77_netblock_false`); penalties (`C77_penalties_false`), UnusedConnectionTimeout (`C77_unused_false`); subsystems in Match
  blocks replace the global ones (`C80_lost_false`) or make the server access memory out of bounds (`C80_fault_false`).
* **group exchange**: `choose_dh` does not prefer an exact match: with a 3072-bit line in front of a 2048-bit one, a wish for 2048 gets 3072 (`C87_exact_false`). Harmless for a sorted file.
* **group exchange**: `dh_new_group_fallback` looks at the maximum only and may exceed it: for a maximum of 3072 the 4096-bit group is sent, which the client refuses (`C87_fallback_false`).
* **group exchange**: `parse_prime` does not look at what follows the hexadecimal digits, nor at a minus sign before the prime.
* **identification**: `sscanf` with `%d` lets `SSH-4294967298.0-x` and `SSH- +2. 007-x` pass for version 2 (`C88_overflow_false`).
* **Curve25519**: `crypto_scalarmult_curve25519` does not clear the top bit of the point received, which RFC 7748 section 5 requires, so points with this bit set give another secret than other implementations compute (`C89_mask_false`). Honest ends never send such points. Not proved: that only points of order dividing eight are refused, which needs the number of points of the curve and its twist.
* **Keys**: the encoding of a key is not unique. Names of signature algorithms (`rsa-sha2-256`, `webauthn-sk-ecdsa-…`) are accepted as names of key types, names may end in a NUL, curve names likewise, and numbers may have leading zeros; such keys are written differently from how they were read (C90_canonical_false). Comparisons of keys are by value and not affected.
* **Signatures**: `sshkey_verify` ignores the algorithm asked for unless the key is RSA, and sshd does not call `sshkey_check_sigtype` for user authentication. A client may name `ecdsa-sha2-nistp256` and use a P-384 key, or name `sk-ecdsa-sha2-nistp256@openssh.com` and send a webauthn signature, and so get round PubkeyAcceptedAlgorithms (C91_algorithm_false; sshd compares only the kind of key, which is the same in both cases). The name `ssh-rsa-cert-v01@openssh.com` permits RSA signatures with any of the three hashes.
* **SOCKS**: after the greeting of SOCKS5 a SOCKS4 request is granted too (C93_mixed_false), and a SOCKS5 name with a NUL is cut there (C93_nul_false). Both only concern what a local program may ask for anyway.
* **User and style**: the data signed contain user and style joined by a colon; they are told apart only because the server splits at the first colon (example in UserKey/Examples).
* **Trusted hosts**: lines of hosts.equiv and .rhosts are read 1023 bytes at a time, so the rest of a longer comment is taken for an entry (C99_comment_false); a denial in a system-wide file does not outweigh a grant in a file of the user (example).
* **Host-based authentication**: critical options of a host certificate are not looked at (C98_critical_false), unlike in the client; a revocation in ssh_known_hosts2 is overlooked if the first files vouch for the key (C98_second_false); data after the signature are ignored (C98_trailing).
* **Rendering**: `strnvis` into one byte returns 0 for any text (C102_one); the log may cut an escape in two at 500 bytes; on a terminal a backslash stands for itself, so escapes can be imitated (C101_ambiguous); on the standard error output a message may span lines (C102_lines).
* **Sessions**: options of a forced `internal-sftp` that follow a tab are ignored, e.g. -R (C103_tab), since the name may end with a tab but words are split at spaces only; words after the ninth are dropped; after a subsystem that failed to start, an exec request is given to the internal server as options (C103_stale); with AcceptEnv covering it the client can set SSH_ORIGINAL_COMMAND itself if it asks for the shell (C104_original_false); 129 variables of the client are accepted, not 128; safely_chroot follows symbolic links without looking at the directories above their targets.
* **The client while it authenticates**: a certificate whose private key is found by file name only (`sign_id->key == NULL`) and a signature of the wrong type make the client dereference a null pointer (sshconnect2.c:1439, C108_crash_original_false); in this case the private key is not compared with the certificate; batch mode asks for the PIN of a security key (C106_batch_original_false); PK_OK may name any key of the list, offered or not, and each further PK_OK elicits one more signature; a second SERVICE_ACCEPT makes the client send a bare request with the name of the current method; after partial success keys are offered again without limit, but not if publickey had run out before, although `pubkey_reset` clears `tried`; a malformed USERAUTH_FAILURE is ignored without a word; PK_OK, PASSWD_CHANGEREQ and INFO_REQUEST share number 60 and one slot.
* **The sandbox**: the macro `SC_FUTEX` ignores its argument and always uses `__NR_futex`, so the line for `futex_time64` permits nothing and the call ends the process on platforms that have it (sandbox-seccomp-filter.c:182-188, C110_futex_time64); if the kernel refuses the filter the process goes on without it and only a debug message says so (C110_without).
* **Changing identities**: groups are remembered by uid alone, so a second account with the same uid gets the groups of the first (C111_groups_shared); `permanently_set_uid` leaves supplementary groups to its callers (C111_groups_stay); after a nested call the first restore does nothing and neither does the second, so privileges do not come back (C111_nested).
* **DisableForwarding**: sshd_config(5) says it disables all forwarding features, but tunnels are still opened: `server_request_tun` looks only at PermitTunnel and the device of the key (C112_disable_original_false; `no-port-forwarding` and `restrict` of a key do not stop it either).
* **Paths of 108 bytes**: `connect_to_helper` compares with `>` instead of `>=`, so a Unix socket path that exactly fills `sun_path` is accepted and cut by `strlcpy`; the connection is made to another path than the one that was permitted (C112_path_original_false).
* **Trailing data**: "tun@openssh.com", most global requests and "auth-agent@openssh.com" are served without a check that the message ends where it should.
* **Escapes**: `last_was_cr` is one variable for all sessions of a connection, so what one multiplexed session types decides whether an escape is recognised in another (C114_separate_original_false); with an escape character that is also a command (`EscapeChar .`) typing it twice runs the command (C114_twice_original_false).
* **Fingerprints in the DNS**: a single record with an unknown digest, for whatever algorithm, makes `verify_host_key_dns` fail (dns.c:258-264): a key confirmed by other records is then not accepted, and a key contradicted by others gives no warning (C117_worthless, C117_silenced). Records whose fingerprint has the wrong length are passed over without a warning. For security keys any readable record has this effect (C117_sk).
* **Answers of name servers**: a message with one question and no answer makes `getrrsetbyname` follow a null pointer (openbsd-compat/getrrsetbyname.c:276, 286; C119_null_case); it relies on `res_query` of the C library not to return such messages. The type of the records is that of the question in the response, not of the one asked (lines 274-275; C119_other_type); it relies on the library to compare them. The ttl is cut to 16 bits (line 571), without effect.
* **Jump hosts** (readconf.c:3369-3432, ssh.c:1337-1355): user and host of a hop of `ProxyJump` or `-J` that is not a URI are not checked and go into a shell command without quotes: `-J "a;reboot"` runs `reboot` (C122_jump_false). Of URIs the user is not checked.
* **User names** (ssh.c:649-667): new lines (and `$`) are accepted, so that a `ProxyCommand` with `%r` outside of quotes is ended by one in the user name (C122_user_false).
* **`rtrim`** (misc.c:97-108) cuts at the first blank, not at the last ones; with `parse_jump`, which takes the hops before the last comma from the line as it was, `ProxyJump a # b,c` becomes a connection to `a` through `a # b` (C121_order_false). A first hop called `none` is left out without notice.
* **URIs** (misc.c:1058-1081): `%00` ends the user name (`ssh://root%00x@h` is user `root`, and `ssh://%00@h` an empty user); addresses of IPv6 in brackets are never accepted, as `valid_domain` excludes colons. A name set by `Hostname` is not checked by `valid_hostname`.
* **A client can end the master** (mux.c:558-559, 728, 894): a request to open or close a forwarding of an unknown kind makes `format_forward` call `fatal` before the kind is checked, so that all sessions end; the reply "Invalid forwarding request" for it is never sent (C123_survives_original_false). A local or remote one without an address to connect to prints a null pointer with `%s` before that is checked (C123_undefined).
* **ControlMaster=ask does not ask for everything** (mux.c:846-956, 1131-1145): a proxy (`-O proxy`), by which a client can open any channel, is established without a question, and forwardings are closed without one (C124_asked_original_false, C124_unasked_close). A forwarding said to be dynamic with a path to connect to is asked about as "-> *" (C124_dynamic_fixed).
* **Closed forwardings** (mux.c:763-794, 942-948): the entry is emptied but stays, and a dynamic forwarding at port 0 without names is the same as it: the client is told that it is open although nothing listens (C127_opened_original_false). `channel_cancel_lport_listener` is never negative, so that closing always succeeds, found or not (mux.c:931; C127_closed_original_false).
* **Exit status of the client** (mux.c:2355-2357, 2363-2366): `ssh -O cancel` ends with 0 even if the master refuses, and `ssh -W` over a master that goes away before it has opened the channel, too (C126_commands_original_false, C126_stdio_lost). With ControlMaster=yes or ask, `-O` commands are not sent at all and ssh connects by itself (mux.c:2277-2286; C126_command_ignored); the same after a failed greeting.
* **Variables** (mux.c:379): 4097 variables are accepted, not 4096. `SetEnv` of a client has to be permitted by `SendEnv` of the master.
* **Listening at all addresses** (mux.c:1780): the client writes an empty address as `*`, which is not the same for `compare_forward` as the empty one in the table of the master: such a forwarding of the configuration of the master cannot be closed by the same option.
* **Proxy clients are not kept apart** (channels.c:3248-3271): a client may send any message with any number of the server, also DISCONNECT; a CLOSE with the number of a channel of another client, or of the master, marks that channel or frees it (C130_separate_original_false).
* **Use after free of proxy clients** (channels.c:735-757, 2448-2452, 2468-2471; nchan.c:328-332): `chan_mark_dead` makes the channel of a client a zombie, and `channel_free` detaches channels and permissions only of those that are still clients. After a packet that is refused, or a failed write, `mux_ctx` and `downstream` point to freed memory, which the next message of the server for such a channel writes to (C130_defined_original_false).
* **A proxy client that leaves early ends the master** (nchan.c:206-229): a channel that the server has not confirmed, or has refused - it is never freed then -, has no number to be closed with when its client has gone, and `chan_send_close2` calls `fatal` (C130_survives_original_false).
* **Answers for proxy clients** (clientloop.c:468-485): the answer to a request of a client to listen is taken for that to the oldest request of the master itself, and never reaches the client (C130_answers_original_false). Any other global request of a client, also to cancel, ends the client (channels.c:3229-3232).
* **X11 and ObscureKeystrokeTiming** (channels.c:5359): `x11_channel_used_recently` returns `monotime() > lastused + 1`, that is, that a connection has *not* been used for more than a second. With an X11 connection that has been idle for two seconds, keys are sent at once and their times can be seen, although hiding is on; while X11 is in use, output is held, which this test was to prevent (C133_x11_original_false). The last connection in the table counts, not the one used last.
* **Late wake-ups** (clientloop.c:671-680): the intervals that were missed are added to the current time, not to the time that was missed. A client that was stopped, or on a computer that slept (CLOCK_BOOTTIME goes on), for an hour, and sees a key first, sets the next time to an hour from now, and holds what is typed until nothing is typed for more than a second (C133_delay_original_false).
* **Cancelling a port above 65535** (channels.c:4024, serverloop.c:753-778): both requests take ports up to 2^31-1; listening keeps the number as it is, cancelling cuts it to 16 bits. Where the resolver takes such a port, what listens cannot be cancelled (C135_undone_original_false).
* **PermitListen and GatewayPorts yes** (channels.c:4232-4266, where a comment asks for it): the address is checked before GatewayPorts replaces it. With `PermitListen localhost:8080` all addresses are listened on (C135_address_original_false). Only whether a *request* is permitted is proved.
* **Taking back a local forwarding** (channels.c:4079-4113): all addresses and the machine itself are both kept as NULL, so that `-KL *:8080:…` to a master also closes a forwarding on `localhost:8080` (C135_local_original_false). Forwardings are not told apart by where they lead, either, but for the port.
* **X11 listeners that nobody serves** (channels.c:5074-5081, 5036-5045): if listen() fails for one address, those before it go on listening, and if socket() fails, those before it stay bound, without a channel and for as long as the process lives (C136_failed_original_false).
* **Host keys and a server that loses its best key** (sshconnect2.c:148-157): if the best algorithm has a known key, the list stays as it is. If the server has dropped this key but still has another one that is known, a type in between without a known key is used, and the user is asked about a new key, or warned (C137_negotiated_original_false).
* **A revoked key hides others of its type** (hostfile.c:363-377, 399-403): looking for a type stops at the first key of it; if that is revoked, the type counts as unknown although a good key of it follows. The order of lines decides (C137_revoked_original_false).
* **The title of a picture** (sshkey.c:1205-1207): `r > sizeof(title)` should be `>=`: a title of 17 letters is cut and loses its bracket, in place of the shorter form. No type with a size in use has this length (C139_title_cut).
* **Pictures are weaker than fingerprints** (sshkey.c:1176-1196): the bytes 75 and 30 go round the same square in two directions; at the start of a digest they give the same picture, whatever follows (C139_same_picture).
* **Sizes handed over are not checked** (packet.c:1030-1036, 2463, 2482): the process that takes over divides by the size of blocks it was sent, or shifts by twice that; and UMAC reads 16 bytes of a key that may be sent shorter. A process taken over before authentication has ended can so end its own connection, or have memory read past a key; it cannot go further, and has a session only after authentication (C141_safe_original_false).
* **`-O clear` takes back `-O verify-required`** (ssh-keygen.c:2047): documented as "clear all enabled permissions", it clears all seven flags, also the one that is a restriction; `-O verify-required -O clear` issues a certificate without it (C142_clear_restriction).
* **Options of one's own can be silently without effect** (ssh-keygen.c:2092-2099): `-O extension:force-command=…` issues a certificate that forces nothing; `-O extension:permit-pty=yes` and a forced command given in both ways issue certificates that servers refuse. None is reported (C142_own).
* **Memory after the made-up X11 cookie can be sent to the server** (channels.c:5285, 5329): the cookie is made up once for a connection, with the length of the first real one, but later sessions over it (ControlMaster) turn as many bytes of it into hexadecimal as their own cookie has. If xauth then lists a longer one, the heap is read past the made-up cookie, up to 255 bytes in all, and sent (C143_safe_original_false; C143_safe_partial says that nothing else leads there).
* **How sftp reads lines** (C146, memory): false as it stands, two witnesses. (a) a line that ends in a backslash: the loop copies the terminating NUL as an escaped character and goes on reading behind it (`C146_read_original_false`). Commands are read with fgets and the newline is replaced, so a second NUL follows, except for a last line without newline, and for name completion, whose copy of the line has just the size. (b) only the two writes that make the line grow check the buffer: a quote, 4090 stars and 110 letters write past the static buffer of 8192 bytes (`C146_write_original_false`). Commands are at most 2047 characters; completion passes lines up to 8191. `C146_safe_partial` shows that lines of up to 4095 characters never write past the buffer, and that the end is passed only by a final backslash.
* **Second key for a code** (hmac.c:65-92): `ssh_hmac_init` does not reset the two hashes if it is given a key for the second time, so the code depends on both keys (C150_rekey_original_false). No caller does this; C150 is about one key.

## Testing the theorems

`seeded/LOG.jsonl` records wrong programs: one definition of the model was edited as a bug would, everything depending on it was
rebuilt, and the theorems that failed were noted. Entries that name tightened theorems are for statements added or changed because
an edit got through. Entries with `survived` are edits after which everything still built; their note says why, as far as known. For
most of the run the tool that makes these edits put survivors in a file outside this repository, so the log showed almost only edits that
were caught; these survivors were added at the end of the log afterwards, out of order. Most edits were rebuilt against the files of
their own area only. Edits whose text did not fit the model, and so were never built, are not in the log.
