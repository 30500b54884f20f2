# Axioms of the theorems named in the manifest

Output of `#print axioms`, one line per theorem.

| Theorem | Axioms |
|---|---|
| `Verif.SshBuf.C01_queue_partial` | propext, Classical.choice, Quot.sound |
| `Verif.SshBuf.C01_queue_from` | propext, Classical.choice, Quot.sound |
| `Verif.SshBuf.C01_error_unchanged` | propext |
| `Verif.SshBuf.C01_reset_small_max_breaks` | propext, Quot.sound |
| `Verif.SshBuf.C01_queue_false` | propext, Quot.sound |
| `Verif.SshBuf.C02_roundtrip_u8` | propext, Classical.choice, Quot.sound |
| `Verif.SshBuf.C02_roundtrip_u16` | propext, Classical.choice, Quot.sound |
| `Verif.SshBuf.C02_roundtrip_u32` | propext, Classical.choice, Quot.sound |
| `Verif.SshBuf.C02_roundtrip_u64` | propext, Classical.choice, Quot.sound |
| `Verif.SshBuf.C02_roundtrip_string` | propext, Classical.choice, Quot.sound |
| `Verif.SshBuf.C02_roundtrip_cstring` | propext, Classical.choice, Quot.sound |
| `Verif.SshBuf.C02_roundtrip_mpint` | propext, Classical.choice, Quot.sound |
| `Verif.SshBuf.C02_mpint_value` | propext |
| `Verif.SshBuf.C02_canonical_int` | propext, Classical.choice, Quot.sound |
| `Verif.SshBuf.C02_canonical_string` | propext, Classical.choice, Quot.sound |
| `Verif.SshBuf.C03_failed_read_unchanged` | propext, Classical.choice, Quot.sound |
| `Verif.SshBuf.C03_get_stringb_consumes_on_error` | propext, Quot.sound |
| `Verif.Match.C05_match_pattern` | propext, Quot.sound |
| `Verif.Match.C06_negative_iff` | propext, Classical.choice, Quot.sound |
| `Verif.Match.C06_positive_iff` | propext, Classical.choice, Quot.sound |
| `Verif.Match.C06_results` | propext, Quot.sound |
| `Verif.Match.C06_negation_wins` | propext, Classical.choice, Quot.sound |
| `Verif.Match.C06_all_negative` | propext, Classical.choice, Quot.sound |
| `Verif.Match.C06_hostname` | propext, Classical.choice, Quot.sound |
| `Verif.Match.C07_match_list` | propext, Quot.sound |
| `Verif.Match.C07_selected_iff` | propext, Quot.sound |
| `Verif.Match.C07_none_iff` | propext, Quot.sound |
| `Verif.Match.C07_next` | propext, Quot.sound |
| `Verif.Match.C08_filter` | propext, Quot.sound |
| `Verif.Match.C08_filter_names` | propext, Quot.sound |
| `Verif.Match.C08_kept_iff` | propext |
| `Verif.Match.C08_filter_general` | propext, Quot.sound |
| `Verif.Addr.C09_netmatch_partial` | propext, Classical.choice, Quot.sound |
| `Verif.Addr.C09_text` | propext, Classical.choice, Quot.sound |
| `Verif.Addr.C09_invalid_length` | propext, Quot.sound |
| `Verif.Addr.C09_text_invalid_length` | propext, Classical.choice, Quot.sound |
| `Verif.Addr.C09_scoped_address_false` | propext, Quot.sound |
| `Verif.Addr.C51_list` | propext, Classical.choice, Quot.sound |
| `Verif.Addr.C51_negation_wins` | propext, Classical.choice, Quot.sound |
| `Verif.Addr.C51_cidr_list_partial` | propext, Classical.choice, Quot.sound |
| `Verif.Addr.C51_cidr_error_lost` | propext, Quot.sound |
| `Verif.Bitmap.C10_set` | propext, Classical.choice, Quot.sound |
| `Verif.Bitmap.C10_accepts` | propext, Classical.choice, Quot.sound |
| `Verif.Bitmap.C10_nbits` | propext, Classical.choice, Quot.sound |
| `Verif.Bitmap.C10_string` | propext, Classical.choice, Quot.sound |
| `Verif.Bitmap.C10_roundtrip` | propext, Classical.choice, Quot.sound |
| `Verif.Bitmap.C10_roundtrip_accepted` | propext, Classical.choice, Quot.sound |
| `Verif.Krl.C11_check` | propext, Classical.choice, Quot.sound |
| `Verif.Krl.C11_ranges` | propext, Classical.choice, Quot.sound |
| `Verif.Krl.C11_order` | propext, Classical.choice, Quot.sound |
| `Verif.Krl.C12_verdicts_partial` | propext, Classical.choice, Quot.sound |
| `Verif.Krl.C12_readable` | propext, Classical.choice, Quot.sound |
| `Verif.Krl.C12_unreadable` | propext, Classical.choice, Quot.sound |
| `Verif.Kex.C13_agree` | propext, Quot.sound |
| `Verif.Kex.C13_together` | propext, Quot.sound |
| `Verif.Kex.C13_choice` | propext, Quot.sound |
| `Verif.Kex.C13_fails_iff_partial` | propext, Classical.choice, Quot.sound |
| `Verif.Kex.C13_wire` | propext, Classical.choice, Quot.sound |
| `Verif.Kex.C13_long_list_false` | propext, Quot.sound |
| `Verif.Kex.C14_decision` | propext, Classical.choice, Quot.sound |
| `Verif.Kex.C14_guess` | propext, Classical.choice, Quot.sound |
| `Verif.Kex.C14_nothing_else` | propext, Quot.sound |
| `Verif.Kex.C53_rfc` | propext, Quot.sound |
| `Verif.Kex.C53_agree` | propext |
| `Verif.Kex.C53_letters` | propext |
| `Verif.Kex.C53_session_id` | propext |
| `Verif.Kex.C54_names_cat` | propext, Classical.choice, Quot.sound |
| `Verif.Kex.C54_explicit` | propext, Classical.choice, Quot.sound |
| `Verif.Kex.C54_empty` | propext |
| `Verif.Kex.C54_remove` | propext, Quot.sound |
| `Verif.Kex.C54_append` | propext, Classical.choice, Quot.sound |
| `Verif.Kex.C54_prepend` | propext, Classical.choice, Quot.sound |
| `Verif.Packet.C15_no_reuse` | propext, Classical.choice, Quot.sound |
| `Verif.Packet.C15_strict_restart` | propext, Classical.choice, Quot.sound |
| `Verif.Packet.C15_consecutive` | propext, Classical.choice, Quot.sound |
| `Verif.Packet.C15_no_wrap_initial` | propext, Classical.choice, Quot.sound |
| `Verif.Packet.C15_wrap_exits` | propext, Classical.choice, Quot.sound |
| `Verif.Packet.C15_receive` | propext, Classical.choice, Quot.sound |
| `Verif.Packet.C15_receive_no_wrap` | propext, Classical.choice, Quot.sound |
| `Verif.Packet.C16_chunks` | propext, Classical.choice, Quot.sound |
| `Verif.Packet.C16_roundtrip` | propext, Classical.choice, Quot.sound |
| `Verif.Packet.C17_checked` | propext, Classical.choice, Quot.sound |
| `Verif.Packet.C17_discard` | propext, Quot.sound |
| `Verif.Packet.C17_prefix` | propext, Classical.choice, Quot.sound |
| `Verif.Packet.C18_only_kex` | propext, Classical.choice, Quot.sound |
| `Verif.Packet.C18_order` | propext, Classical.choice, Quot.sound |
| `Verif.Packet.C18_prefix` | propext, Classical.choice, Quot.sound |
| `Verif.Packet.C18_open` | propext, Classical.choice, Quot.sound |
| `Verif.Packet.C55_bucket` | propext, Classical.choice, Quot.sound |
| `Verif.Packet.C55_wire` | propext, Classical.choice, Quot.sound |
| `Verif.SshBuf.C04_no_fault` | propext, Classical.choice, Quot.sound |
| `Verif.SshBuf.C04_stable` | propext, Classical.choice, Quot.sound |
| `Verif.SshBuf.C04_release` | propext, Classical.choice, Quot.sound |
| `Verif.SshBuf.C04_no_leak` | propext, Classical.choice, Quot.sound |
| `Verif.SshBuf.C04_free_returns` | propext, Classical.choice, Quot.sound |
| `Verif.SshBuf.C04_fromb` | propext, Classical.choice, Quot.sound |
| `Verif.SshBuf.C04_froms` | propext, Classical.choice, Quot.sound |
| `Verif.Chan.C19_send` | propext, Quot.sound |
| `Verif.Chan.C19_maxpacket` | propext, Quot.sound |
| `Verif.Chan.C19_recv_partial` | propext, Classical.choice, Quot.sound |
| `Verif.Chan.C19_recv_bound_partial` | propext, Classical.choice, Quot.sound |
| `Verif.Chan.C19_recv_false` | propext, Quot.sound |
| `Verif.Chan.C20_close_last` | propext, Quot.sound |
| `Verif.Chan.C20_close_last_strict` | propext, Quot.sound |
| `Verif.Chan.C20_eof_last` | propext, Quot.sound |
| `Verif.Chan.C20_freed` | propext, Quot.sound |
| `Verif.Chan.C20_progress` | propext, Quot.sound |
| `Verif.Chan.C20_release` | propext, Quot.sound |
| `Verif.Chan.C20_half_open_kept` | propext, Quot.sound |
| `Verif.Chan.C20_undelivered_kept` | propext, Quot.sound |
| `Verif.Chan.C20_opening_cleanup_fatal` | propext |
| `Verif.Chan.C21_new` | propext, Quot.sound |
| `Verif.Chan.C21_event` | propext |
| `Verif.Chan.C21_identity` | propext, Quot.sound |
| `Verif.Chan.C21_reuse` | propext, Classical.choice, Quot.sound |
| `Verif.Chan.C21_bound` | propext, Quot.sound |
| `Verif.Permit.C22_direct_tcpip` | propext, Classical.choice, Quot.sound |
| `Verif.Permit.C22_direct_streamlocal` | propext, Classical.choice, Quot.sound |
| `Verif.Permit.C22_tcpip_forward` | propext, Classical.choice, Quot.sound |
| `Verif.Permit.C22_streamlocal_forward` | propext, Classical.choice, Quot.sound |
| `Verif.Permit.C22_permitlisten_slash_fatal` | propext, Classical.choice, Quot.sound |
| `Verif.Permit.C22_client_tcp` | propext, Classical.choice, Quot.sound |
| `Verif.Permit.C22_client_path` | propext, Quot.sound |
| `Verif.Chan.C56_outgoing` | propext, Quot.sound |
| `Verif.Chan.C56_incoming` | propext, Quot.sound |
| `Verif.Chan.C56_eof_complete` | propext, Quot.sound |
| `Verif.Chan.C56_accept_order` | propext, Quot.sound |
| `Verif.Chan.C56_delivered` | propext, Classical.choice, Quot.sound |
| `Verif.Chan.C57_conserved_partial` | propext, Classical.choice, Quot.sound |
| `Verif.Chan.C57_no_starvation_partial` | propext, Classical.choice, Quot.sound |
| `Verif.Chan.C57_leak` | propext |
| `Verif.Auth.C23_login_backed` | propext, Classical.choice, Quot.sound |
| `Verif.Auth.C23_step_backed` | propext, Classical.choice, Quot.sound |
| `Verif.Auth.C23_same_user` | propext, Classical.choice, Quot.sound |
| `Verif.Auth.C23_none_once` | propext, Classical.choice, Quot.sound |
| `Verif.Auth.C23_tries` | propext, Classical.choice, Quot.sound |
| `Verif.Auth.C23_tries_fair` | propext, Classical.choice, Quot.sound |
| `Verif.Auth.C23_final` | propext, Classical.choice, Quot.sound |
| `Verif.Auth.C24_login_needs_list` | propext, Classical.choice, Quot.sound |
| `Verif.Auth.C24_whole_list_ends` | propext, Classical.choice, Quot.sound |
| `Verif.Auth.C24_single` | propext, Classical.choice, Quot.sound |
| `Verif.Auth.C24_offered` | propext, Classical.choice, Quot.sound |
| `Verif.Auth.C58_one_guess` | propext, Classical.choice, Quot.sound |
| `Verif.KeyOpts.C25_both_grant` | propext |
| `Verif.KeyOpts.C25_primary` | propext, Classical.choice, Quot.sound |
| `Verif.KeyOpts.C25_additional_partial` | propext, Classical.choice, Quot.sound |
| `Verif.KeyOpts.C25_key_cert` | propext, Classical.choice, Quot.sound |
| `Verif.KeyOpts.C25_refused_iff` | propext, Quot.sound |
| `Verif.KeyOpts.C25_expiry_lost` | propext, Quot.sound |
| `Verif.KeyOpts.C25_lists_lost` | propext, Quot.sound |
| `Verif.KeyOpts.C25_session` | propext, Quot.sound |
| `Verif.KeyOpts.C26_line` | propext, Classical.choice, Quot.sound |
| `Verif.KeyOpts.C26_options` | propext, Classical.choice, Quot.sound |
| `Verif.KeyOpts.C26_unknown_refused` | propext, Classical.choice, Quot.sound |
| `Verif.KeyOpts.C26_trusted` | propext, Classical.choice, Quot.sound |
| `Verif.KeyOpts.C26_host` | propext, Classical.choice, Quot.sound |
| `Verif.KeyOpts.C26_plain` | propext, Quot.sound |
| `Verif.KeyOpts.C26_file` | propext, Quot.sound |
| `Verif.KeyOpts.C26_comma_in_name` | propext, Quot.sound |
| `Verif.KeyOpts.C26_nameless` | propext, Quot.sound |
| `Verif.KeyOpts.C26_principals` | propext, Classical.choice, Quot.sound |
| `Verif.KeyOpts.C26_plain_principal` | propext, Classical.choice, Quot.sound |
| `Verif.KeyOpts.C59_parse` | propext, Classical.choice, Quot.sound |
| `Verif.KeyOpts.C59_same_end` | propext, Quot.sound |
| `Verif.KeyOpts.C59_permissions` | propext, Quot.sound |
| `Verif.KeyOpts.C59_expiry` | propext, Classical.choice, Quot.sound |
| `Verif.KeyOpts.C59_environment` | propext, Classical.choice, Quot.sound |
| `Verif.KeyOpts.C59_clauses` | propext, Classical.choice, Quot.sound |
| `Verif.Access.C46_allowed` | propext, Classical.choice, Quot.sound |
| `Verif.Access.C46_deny` | propext, Classical.choice, Quot.sound |
| `Verif.Access.C46_allow` | propext, Classical.choice, Quot.sound |
| `Verif.Access.C46_group_list` | propext, Classical.choice, Quot.sound |
| `Verif.Monitor.C27_order` | propext, Classical.choice, Quot.sound |
| `Verif.Monitor.C27_refused` | propext, Classical.choice, Quot.sound |
| `Verif.Monitor.C27_once` | propext, Classical.choice, Quot.sound |
| `Verif.Monitor.C27_logged` | propext, Classical.choice, Quot.sound |
| `Verif.Monitor.C27_accept` | propext, Classical.choice, Quot.sound |
| `Verif.Monitor.C27_password` | propext, Classical.choice, Quot.sound |
| `Verif.Monitor.C27_pam` | propext, Classical.choice, Quot.sound |
| `Verif.Monitor.C27_pam_answers` | propext, Quot.sound |
| `Verif.Monitor.C27_tries` | propext, Classical.choice, Quot.sound |
| `Verif.Monitor.C27_post` | propext, Classical.choice, Quot.sound |
| `Verif.Monitor.C27_clash_crashes` | propext |
| `Verif.Monitor.C28_key` | propext, Classical.choice, Quot.sound |
| `Verif.Monitor.C28_data` | propext, Classical.choice, Quot.sound |
| `Verif.Monitor.C28_touch` | propext, Classical.choice, Quot.sound |
| `Verif.Monitor.C28_approved` | propext, Classical.choice, Quot.sound |
| `Verif.Monitor.C28_reuse` | propext, Classical.choice, Quot.sound |
| `Verif.Monitor.C60_before` | propext, Classical.choice, Quot.sound |
| `Verif.Monitor.C60_after` | propext, Classical.choice, Quot.sound |
| `Verif.Monitor.C60_session` | propext, Classical.choice, Quot.sound |
| `Verif.Startup.C29_percent` | propext, Classical.choice, Quot.sound |
| `Verif.Startup.C29_monotone` | propext, Classical.choice, Quot.sound |
| `Verif.Startup.C30_exact` | propext, Classical.choice, Quot.sound |
| `Verif.Startup.C30_never_more` | propext, Classical.choice, Quot.sound |
| `Verif.Startup.C30_limit` | propext, Classical.choice, Quot.sound |
| `Verif.Startup.C30_exhausted` | propext, Classical.choice, Quot.sound |
| `Verif.Startup.C30_login_keeps_slot` | propext, Quot.sound |
| `Verif.Startup.C31_total` | propext, Classical.choice, Quot.sound |
| `Verif.Startup.C31_check` | propext, Classical.choice, Quot.sound |
| `Verif.Startup.C31_size` | propext, Classical.choice, Quot.sound |
| `Verif.Startup.C31_offence` | propext, Classical.choice, Quot.sound |
| `Verif.Startup.C31_exit` | propext, Quot.sound |
| `Verif.Startup.C31_bound_partial` | propext, Quot.sound |
| `Verif.Startup.C31_first_uncapped` | propext, Quot.sound |
| `Verif.Startup.C61_counts` | propext, Classical.choice, Quot.sound |
| `Verif.Startup.C61_total` | propext, Classical.choice, Quot.sound |
| `Verif.Startup.C61_free` | propext, Classical.choice, Quot.sound |
| `Verif.Agent.C32_total` | propext, Classical.choice, Quot.sound |
| `Verif.Agent.C32_table` | propext, Classical.choice, Quot.sound |
| `Verif.Agent.C32_lock_state` | propext, Classical.choice, Quot.sound |
| `Verif.Agent.C32_locked` | propext, Classical.choice, Quot.sound |
| `Verif.Agent.C32_unlock` | propext, Classical.choice, Quot.sound |
| `Verif.Agent.C32_lock` | propext, Classical.choice, Quot.sound |
| `Verif.Agent.C32_use` | propext, Classical.choice, Quot.sound |
| `Verif.Agent.C32_signature` | propext, Quot.sound |
| `Verif.Agent.C32_expired_partial` | propext, Classical.choice, Quot.sound |
| `Verif.Agent.C32_expired_false` | propext, Quot.sound |
| `Verif.Agent.C32_round` | propext, Classical.choice, Quot.sound |
| `Verif.Agent.C32_remove_all` | propext, Classical.choice, Quot.sound |
| `Verif.Agent.C32_add_new` | propext, Classical.choice, Quot.sound |
| `Verif.Agent.C32_add_again` | propext, Classical.choice, Quot.sound |
| `Verif.Agent.C32_add_bad` | propext, Classical.choice, Quot.sound |
| `Verif.Agent.C32_remove` | propext, Classical.choice, Quot.sound |
| `Verif.Agent.C32_unchanged` | propext, Quot.sound |
| `Verif.Agent.C32_token` | propext, Classical.choice, Quot.sound |
| `Verif.Agent.C32_token_remove` | propext, Classical.choice, Quot.sound |
| `Verif.Agent.C32_add_request` | propext, Classical.choice, Quot.sound |
| `Verif.Agent.C33_sign` | propext, Classical.choice, Quot.sound |
| `Verif.Agent.C33_granted` | propext, Classical.choice, Quot.sound |
| `Verif.Agent.C33_listed` | propext, Classical.choice, Quot.sound |
| `Verif.Agent.C33_bindings` | propext, Classical.choice, Quot.sound |
| `Verif.Agent.C33_attempted` | propext, Classical.choice, Quot.sound |
| `Verif.Agent.C33_attempted_stays` | propext, Quot.sound |
| `Verif.Agent.C33_long_sid` | propext, Classical.choice, Quot.sound |
| `Verif.Agent.C33_empty_restriction` | propext |
| `Verif.Misc.Argv.C39_split_iff` | propext, Classical.choice, Quot.sound |
| `Verif.Misc.Argv.C39_roundtrip_partial` | propext, Classical.choice, Quot.sound |
| `Verif.Misc.Argv.C39_empty_lost` | none |
| `Verif.Misc.Argv.C39_comment_lost` | none |
| `Verif.Misc.Time.C40_iff` | propext, Classical.choice, Quot.sound |
| `Verif.Misc.Time.C40_rejected` | propext, Classical.choice, Quot.sound |
| `Verif.Misc.Time.C40_unique` | propext, Quot.sound |
| `Verif.Misc.Expand.C41_expand` | propext, Classical.choice, Quot.sound |
| `Verif.Misc.Expand.C41_bad` | propext, Classical.choice, Quot.sound |
| `Verif.Misc.Expand.C41_missing` | propext, Classical.choice, Quot.sound |
| `Verif.Misc.Expand.C41_single_pass` | propext, Classical.choice, Quot.sound |
| `Verif.Misc.Expand.C41_percent_total` | propext, Classical.choice, Quot.sound |
| `Verif.Misc.Io.C42_prefix` | propext, Classical.choice, Quot.sound |
| `Verif.Misc.Io.C42_complete` | propext, Classical.choice, Quot.sound |
| `Verif.Misc.Io.C42_count_partial` | propext, Classical.choice, Quot.sound |
| `Verif.Misc.Io.C42_full` | propext, Classical.choice, Quot.sound |
| `Verif.Misc.Io.C42_keeps_trying` | propext, Classical.choice, Quot.sound |
| `Verif.Misc.Io.C42_error_count_false` | propext |
| `Verif.Misc.Io.C42_vector` | propext, Quot.sound |
| `Verif.Misc.Io.C42_vector_empty_first` | propext, Quot.sound |
| `Verif.Hostfile.C38_revoked` | propext, Quot.sound |
| `Verif.Hostfile.C38_otherwise` | propext, Classical.choice, Quot.sound |
| `Verif.Hostfile.C38_changed` | propext, Classical.choice, Quot.sound |
| `Verif.Hostfile.C38_lookup` | propext, Quot.sound |
| `Verif.Hostfile.C38_load` | propext, Classical.choice, Quot.sound |
| `Verif.Hostfile.C38_file` | propext, Classical.choice, Quot.sound |
| `Verif.Hostfile.C38_file_cert` | propext, Classical.choice, Quot.sound |
| `Verif.Hostfile.C38_base64` | propext, Classical.choice, Quot.sound |
| `Verif.Hostfile.C38_tab_ignored` | propext |
| `Verif.Hostfile.C38_malformed_ignored` | propext |
| `Verif.Hostfile.C38_stale_buffer` | propext |
| `Verif.Hostfile.C62_kept` | propext, Classical.choice, Quot.sound |
| `Verif.Hostfile.C62_listed` | propext, Classical.choice, Quot.sound |
| `Verif.Hostfile.C62_shared_line_lost` | propext |
| `Verif.Hostfile.C62_hashed_case` | propext |
| `Verif.Misc.Base64.C63_encode` | propext, Classical.choice, Quot.sound |
| `Verif.Misc.Base64.C63_decode` | propext, Classical.choice, Quot.sound |
| `Verif.Misc.Base64.C63_b64tod` | propext, Classical.choice, Quot.sound |
| `Verif.Misc.Base64.C63_unique` | propext, Classical.choice, Quot.sound |
| `Verif.Misc.Base64.C63_roundtrip` | propext, Classical.choice, Quot.sound |
| `Verif.Crypto.Poly.C43_poly1305` | propext, Classical.choice, Quot.sound |
| `Verif.Crypto.Poly.C43_poly1305_iff` | propext, Classical.choice, Quot.sound |
| `Verif.Crypto.ChaCha.C44_stream` | propext, Classical.choice, Quot.sound |
| `Verif.Crypto.ChaCha.C44_context` | propext, Classical.choice, Quot.sound |
| `Verif.Crypto.ChaCha.C44_decrypt` | propext, Classical.choice, Quot.sound |
| `Verif.Crypto.ChaCha.C44_setup` | propext, Classical.choice, Quot.sound |
| `Verif.Crypto.ChaCha.C64_sealed` | propext, Classical.choice, Quot.sound |
| `Verif.Crypto.ChaCha.C64_opened` | propext, Classical.choice, Quot.sound |
| `Verif.Crypto.ChaCha.C64_roundtrip` | propext, Classical.choice, Quot.sound |
| `Verif.Crypto.ChaCha.C64_length` | propext, Classical.choice, Quot.sound |
| `Verif.Crypto.ChaCha.C64_fresh` | propext, Classical.choice, Quot.sound |
| `Verif.Tty.C49_roundtrip_partial` | propext, Classical.choice, Quot.sound |
| `Verif.Tty.C49_complete` | propext, Classical.choice, Quot.sound |
| `Verif.Tty.C49_trailing` | propext, Classical.choice, Quot.sound |
| `Verif.Tty.C49_short` | propext, Classical.choice, Quot.sound |
| `Verif.Tty.C49_cases` | propext, Classical.choice, Quot.sound |
| `Verif.Tty.C49_char` | propext, Quot.sound |
| `Verif.Tty.C49_flag` | propext, Classical.choice, Quot.sound |
| `Verif.Tty.C49_speed` | propext, Quot.sound |
| `Verif.Tty.C49_speed_same` | propext, Quot.sound |
| `Verif.Tty.C49_char_lost` | none |
| `Verif.Tty.C49_cs7_lost` | propext, Classical.choice, Quot.sound |
| `Verif.Scp.C50_confined` | propext, Quot.sound |
| `Verif.Scp.C65_roundtrip` | propext, Classical.choice, Quot.sound |
| `Verif.Scp.C65_single` | propext, Classical.choice, Quot.sound |
| `Verif.Scp.C65_content` | propext, Classical.choice, Quot.sound |
| `Verif.Scp.C65_setuid` | propext |
| `Verif.Scp.C66_expand` | propext, Classical.choice, Quot.sound |
| `Verif.Scp.C66_restricts` | propext, Classical.choice, Quot.sound |
| `Verif.Scp.C66_accepted` | propext, Classical.choice, Quot.sound |
| `Verif.Scp.C66_trailing_comma` | propext |
| `Verif.Sig.C47_determined` | propext, Classical.choice, Quot.sound |
| `Verif.Sig.C47_separate` | propext |
| `Verif.Sig.C47_verify` | propext, Classical.choice, Quot.sound |
| `Verif.Sig.C47_one_namespace` | propext, Classical.choice, Quot.sound |
| `Verif.Sig.C47_holder` | propext, Classical.choice, Quot.sound |
| `Verif.Sig.C47_sign_verify` | propext, Classical.choice, Quot.sound |
| `Verif.Sig.C47_dearmor` | propext, Classical.choice, Quot.sound |
| `Verif.Sig.C47_armor` | propext, Classical.choice, Quot.sound |
| `Verif.Sig.C67_options` | propext, Classical.choice, Quot.sound |
| `Verif.Sig.C67_allowed` | propext, Classical.choice, Quot.sound |
| `Verif.Sig.C67_signature` | propext, Classical.choice, Quot.sound |
| `Verif.Sig.C67_find` | propext, Classical.choice, Quot.sound |
| `Verif.Sig.C67_match` | propext, Classical.choice, Quot.sound |
| `Verif.Sig.C67_find_negated` | propext |
| `Verif.PrivKey.C48_parse` | propext, Classical.choice, Quot.sound |
| `Verif.PrivKey.C48_roundtrip` | propext, Classical.choice, Quot.sound |
| `Verif.PrivKey.C48_check` | propext, Classical.choice, Quot.sound |
| `Verif.PrivKey.C48_padding` | propext, Classical.choice, Quot.sound |
| `Verif.PrivKey.C48_tag` | propext, Classical.choice, Quot.sound |
| `Verif.PrivKey.C48_needs_passphrase` | propext, Classical.choice, Quot.sound |
| `Verif.PrivKey.C48_public` | propext, Classical.choice, Quot.sound |
| `Verif.PrivKey.C48_public_exact` | propext, Classical.choice, Quot.sound |
| `Verif.PrivKey.C48_ed_public` | propext, Classical.choice, Quot.sound |
| `Verif.PrivKey.C48_ed25519` | propext, Classical.choice, Quot.sound |
| `Verif.PrivKey.C48_halves_false` | propext, Classical.choice, Quot.sound |
| `Verif.Sftp.C34_fresh` | propext, Classical.choice, Quot.sound |
| `Verif.Sftp.C34_object` | propext, Classical.choice, Quot.sound |
| `Verif.Sftp.C34_dead` | propext, Classical.choice, Quot.sound |
| `Verif.Sftp.C34_close` | propext, Classical.choice, Quot.sound |
| `Verif.Sftp.C34_accepted` | propext, Classical.choice, Quot.sound |
| `Verif.Sftp.C35_readonly` | propext, Classical.choice, Quot.sound |
| `Verif.Sftp.C35_lists` | propext, Classical.choice, Quot.sound |
| `Verif.Sftp.C35_only` | propext, Classical.choice, Quot.sound |
| `Verif.Sftp.C35_announced` | propext, Quot.sound |
| `Verif.Sftp.C36_in_order` | propext, Classical.choice, Quot.sound |
| `Verif.Sftp.C36_end` | propext, Classical.choice, Quot.sound |
| `Verif.Sftp.C36_drained` | propext, Classical.choice, Quot.sound |
| `Verif.Sftp.C36_same` | propext, Classical.choice, Quot.sound |
| `Verif.Sftp.C36_overrun_false` | propext, Classical.choice, Quot.sound |
| `Verif.Sftp.C36_waiting` | propext |
| `Verif.Sftp.C68_one_answer` | propext, Classical.choice, Quot.sound |
| `Verif.Sftp.C68_wire` | propext, Quot.sound |
| `Verif.Sftp.C68_id` | propext, Classical.choice, Quot.sound |
| `Verif.Sftp.C68_answer` | propext, Classical.choice, Quot.sound |
| `Verif.Sftp.C69_one_call` | propext, Classical.choice, Quot.sound |
| `Verif.Sftp.C69_errors` | propext, Classical.choice, Quot.sound |
| `Verif.Sftp.C69_setstat` | propext, Classical.choice, Quot.sound |
| `Verif.Sftp.C69_write` | propext, Classical.choice, Quot.sound |
| `Verif.Sftp.C69_read` | propext, Classical.choice, Quot.sound |
| `Verif.Sftp.C69_rename` | propext, Quot.sound |
| `Verif.Sftp.C69_copy_to_end` | propext, Classical.choice, Quot.sound |
| `Verif.Sftp.C69_copy_length_partial` | propext, Classical.choice, Quot.sound |
| `Verif.Sftp.C69_copy_false` | propext, Quot.sound |
| `Verif.Sftp.C70_attributes` | propext, Classical.choice, Quot.sound |
| `Verif.Sftp.C70_exact` | propext, Classical.choice, Quot.sound |
| `Verif.Sftp.Client.C37_download` | propext, Classical.choice, Quot.sound |
| `Verif.Sftp.Client.C37_resume` | propext, Classical.choice, Quot.sound |
| `Verif.Sftp.Client.C37_request` | propext, Classical.choice, Quot.sound |
| `Verif.Sftp.Client.C37_server` | propext, Classical.choice, Quot.sound |
| `Verif.Sftp.Client.C37_truncate_false` | propext, Classical.choice, Quot.sound |
| `Verif.Sftp.Client.C71_prefix_partial` | propext, Classical.choice, Quot.sound |
| `Verif.Sftp.Client.C71_prefix_false` | propext, Classical.choice, Quot.sound |
| `Verif.Sftp.Client.C72_upload_partial` | propext, Classical.choice, Quot.sound |
| `Verif.Sftp.Client.C72_effect` | propext, Quot.sound |
| `Verif.Sftp.Client.C72_refusal_lost` | propext |
| `Verif.Sftp.Client.C72_interrupt_success` | propext |
| `Verif.Sftp.Client.C72_cut` | propext, Quot.sound |
| `Verif.Sftp.Client.C72_refused_kept` | propext |
| `Verif.Sftp.Client.C73_confined` | propext, Quot.sound |
| `Verif.Sftp.Client.C73_file` | propext, Quot.sound |
| `Verif.Sftp.Client.C73_links` | propext |
| `Verif.Conf.C45_follows` | propext, Quot.sound |
| `Verif.Conf.C45_first` | propext, Quot.sound |
| `Verif.Conf.C45_way` | propext, Quot.sound |
| `Verif.Conf.C45_lists` | propext, Quot.sound |
| `Verif.Conf.C45_kept` | propext, Quot.sound |
| `Verif.Conf.C45_refused` | propext, Quot.sound |
| `Verif.Conf.C45_choice` | propext, Quot.sound |
| `Verif.Conf.C45_count` | propext, Quot.sound |
| `Verif.Conf.C45_time` | propext, Quot.sound |
| `Verif.Conf.C45_word` | propext, Quot.sound |
| `Verif.Conf.C45_command` | propext, Quot.sound |
| `Verif.Conf.C45_file` | propext, Quot.sound |
| `Verif.Conf.C45_hosts` | propext, Quot.sound |
| `Verif.Conf.C45_one_word` | propext, Quot.sound |
| `Verif.Conf.C45_hosts_iff` | propext, Quot.sound |
| `Verif.Conf.C45_unknown` | propext, Quot.sound |
| `Verif.Conf.C45_sendenv` | propext, Quot.sound |
| `Verif.Conf.C45_none_false` | propext |
| `Verif.Conf.C45_facility_false` | propext |
| `Verif.Conf.C45_mask_false` | propext |
| `Verif.Conf.C45_agent_false` | propext |
| `Verif.Conf.C74_host` | propext, Quot.sound |
| `Verif.Conf.C75_match` | propext, Quot.sound |
| `Verif.Conf.C75_names` | propext, Classical.choice, Quot.sound |
| `Verif.Conf.C75_text` | propext, Quot.sound |
| `Verif.Conf.C75_session` | propext, Quot.sound |
| `Verif.Conf.C75_host` | propext, Quot.sound |
| `Verif.Conf.C76_block_kept` | propext |
| `Verif.Conf.C76_inactive_partial` | propext, Quot.sound |
| `Verif.Conf.C76_inactive_false` | propext |
| `Verif.SrvConf.C77_read` | propext, Quot.sound |
| `Verif.SrvConf.C77_number` | propext, Quot.sound |
| `Verif.SrvConf.C77_last` | propext, Quot.sound |
| `Verif.SrvConf.C77_text_partial` | propext, Quot.sound |
| `Verif.SrvConf.C77_list_partial` | propext, Classical.choice, Quot.sound |
| `Verif.SrvConf.C77_growing` | propext, Quot.sound |
| `Verif.SrvConf.C77_refused` | propext, Quot.sound |
| `Verif.SrvConf.C77_blocks` | propext, Quot.sound |
| `Verif.SrvConf.C77_manual` | propext, Quot.sound |
| `Verif.SrvConf.C77_choice` | propext, Quot.sound |
| `Verif.SrvConf.C77_count` | propext, Quot.sound |
| `Verif.SrvConf.C77_time` | propext, Quot.sound |
| `Verif.SrvConf.C77_file` | propext, Quot.sound |
| `Verif.SrvConf.C77_word` | propext, Quot.sound |
| `Verif.SrvConf.C77_names` | propext, Quot.sound |
| `Verif.SrvConf.C77_command` | propext, Quot.sound |
| `Verif.SrvConf.C77_none_false` | propext, Quot.sound |
| `Verif.SrvConf.C77_timeout_none_false` | propext, Quot.sound |
| `Verif.SrvConf.C77_netblock_false` | propext, Quot.sound |
| `Verif.SrvConf.C77_penalties_false` | propext, Quot.sound |
| `Verif.SrvConf.C77_unused_false` | propext, Quot.sound |
| `Verif.SrvConf.C78_match` | propext, Quot.sound |
| `Verif.SrvConf.C78_start` | propext, Quot.sound |
| `Verif.SrvConf.C79_off` | propext, Quot.sound |
| `Verif.SrvConf.C79_reads` | propext, Quot.sound |
| `Verif.SrvConf.C79_block_kept` | propext, Quot.sound |
| `Verif.SrvConf.C80_exact` | propext, Quot.sound |
| `Verif.SrvConf.C80_partial` | propext, Quot.sound |
| `Verif.SrvConf.C80_first` | propext, Quot.sound |
| `Verif.SrvConf.C80_lost_false` | propext, Quot.sound |
| `Verif.SrvConf.C80_fault_false` | propext, Quot.sound |
| `Verif.HostKey.C81_accept` | propext, Classical.choice, Quot.sound |
| `Verif.HostKey.C81_strict` | propext, Classical.choice, Quot.sound |
| `Verif.HostKey.C81_strict_iff` | propext, Classical.choice, Quot.sound |
| `Verif.HostKey.C81_revoked` | propext, Classical.choice, Quot.sound |
| `Verif.HostKey.C81_revoked_authority` | propext, Quot.sound |
| `Verif.HostKey.C81_changed` | propext, Classical.choice, Quot.sound |
| `Verif.HostKey.C81_unsafe` | propext, Classical.choice, Quot.sound |
| `Verif.HostKey.C81_revocation_file` | propext |
| `Verif.HostKey.C81_verify` | propext |
| `Verif.HostKey.C81_address_revoked_false` | propext |
| `Verif.HostKey.C81_port_revoked_false` | propext |
| `Verif.HostKey.C82_adds` | propext, Classical.choice, Quot.sound |
| `Verif.HostKey.C82_strict_adds` | propext, Classical.choice, Quot.sound |
| `Verif.HostKey.C82_weaker` | propext, Classical.choice, Quot.sound |
| `Verif.HostKey.C82_update` | propext, Classical.choice, Quot.sound |
| `Verif.HostKey.C82_question` | propext, Quot.sound |
| `Verif.HostKey.C82_address` | propext, Classical.choice, Quot.sound |
| `Verif.HostKey.C82_certificate_skips_address` | propext |
| `Verif.HostKey.C82_recorded_and_refused` | propext |
| `Verif.HostKey.C82_null_pointer_false` | propext |
| `Verif.HostKey.Update.C83_when` | propext, Classical.choice, Quot.sound |
| `Verif.HostKey.Update.C83_asked` | propext, Classical.choice, Quot.sound |
| `Verif.HostKey.Update.C83_listed` | propext, Classical.choice, Quot.sound |
| `Verif.HostKey.Update.C83_kept` | propext, Classical.choice, Quot.sound |
| `Verif.HostKey.Update.C83_first_missing_false` | propext, Quot.sound |
| `Verif.HostKey.Update.C83_algorithms_false` | propext, Quot.sound |
| `Verif.HostKey.Update.C83_address_false` | propext, Quot.sound |
| `Verif.Addr.C52_range` | propext, Classical.choice, Quot.sound |
| `Verif.Addr.C52_name` | propext, Quot.sound |
| `Verif.Exch.C84_gen_rfc` | propext |
| `Verif.Exch.C84_gex_rfc` | propext |
| `Verif.Exch.C84_gen_injective` | propext, Classical.choice, Quot.sound |
| `Verif.Exch.C84_gex_injective` | propext, Classical.choice, Quot.sound |
| `Verif.Exch.C84_numbers` | propext, Quot.sound |
| `Verif.Exch.C85_strict` | propext, Classical.choice, Quot.sound |
| `Verif.Exch.C85_marker` | propext, Quot.sound |
| `Verif.Exch.C85_unexpected` | propext, Classical.choice, Quot.sound |
| `Verif.Exch.C86_records` | propext, Classical.choice, Quot.sound |
| `Verif.Exch.C86_keys` | propext, Classical.choice, Quot.sound |
| `Verif.Exch.C86_session` | propext, Classical.choice, Quot.sound |
| `Verif.Exch.C86_client` | propext, Classical.choice, Quot.sound |
| `Verif.Exch.C86_client_gex` | propext, Classical.choice, Quot.sound |
| `Verif.Exch.C86_agree` | propext, Classical.choice, Quot.sound |
| `Verif.Dh.C87_choice_partial` | propext, Classical.choice, Quot.sound |
| `Verif.Dh.C87_refused` | propext, Classical.choice, Quot.sound |
| `Verif.Dh.C87_any` | propext, Classical.choice, Quot.sound |
| `Verif.Dh.C87_exact` | propext, Classical.choice, Quot.sound |
| `Verif.Dh.C87_ascending` | propext, Classical.choice, Quot.sound |
| `Verif.Dh.C87_fallback_partial` | propext |
| `Verif.Dh.C87_fallback_false` | propext |
| `Verif.Dh.C87_exact_false` | propext |
| `Verif.Dh.C87_estimate` | propext, Quot.sound |
| `Verif.Dh.C87_wish` | propext, Quot.sound |
| `Verif.Dh.C87_line` | propext, Classical.choice, Quot.sound |
| `Verif.Dh.C87_line_used` | propext, Quot.sound |
| `Verif.Dh.C87_hex` | propext |
| `Verif.Dh.C87_public` | propext, Classical.choice, Quot.sound |
| `Verif.Dh.C87_private` | propext, Classical.choice, Quot.sound |
| `Verif.Banner.C88_read` | propext, Quot.sound |
| `Verif.Banner.C88_accept` | propext, Quot.sound |
| `Verif.Banner.C88_only` | propext, Quot.sound |
| `Verif.Banner.C88_buffer` | propext, Quot.sound |
| `Verif.Banner.C88_both` | propext, Quot.sound |
| `Verif.Banner.C88_recent` | none |
| `Verif.Banner.C88_kex` | propext, Classical.choice, Quot.sound |
| `Verif.Banner.C88_overflow_false` | propext |
| `Verif.Curve25519.C89_value` | propext, Classical.choice, Quot.sound |
| `Verif.Curve25519.C89_rfc_partial` | propext, Classical.choice, Quot.sound |
| `Verif.Curve25519.C89_canonical` | propext, Classical.choice, Quot.sound |
| `Verif.Curve25519.C89_point` | propext, Classical.choice, Quot.sound |
| `Verif.Curve25519.C89_point_exists` | propext, Classical.choice, Quot.sound |
| `Verif.Curve25519.C89_commute` | propext, Classical.choice, Quot.sound |
| `Verif.Curve25519.C89_agree` | propext, Classical.choice, Quot.sound |
| `Verif.Curve25519.C89_refused` | propext, Classical.choice, Quot.sound |
| `Verif.Curve25519.C89_small_order` | propext, Classical.choice, Quot.sound |
| `Verif.Curve25519.C89_secret` | propext, Classical.choice, Quot.sound |
| `Verif.Curve25519.C89_mask_false` | propext, Classical.choice, Quot.sound |
| `Verif.PubKey.C90_plain` | propext, Classical.choice, Quot.sound |
| `Verif.PubKey.C90_certificate` | propext, Classical.choice, Quot.sound |
| `Verif.PubKey.C90_signed` | propext, Classical.choice, Quot.sound |
| `Verif.PubKey.C90_kept` | propext, Classical.choice, Quot.sound |
| `Verif.PubKey.C90_plain_roundtrip` | propext, Classical.choice, Quot.sound |
| `Verif.PubKey.C90_issued` | propext, Classical.choice, Quot.sound |
| `Verif.PubKey.C90_canonical_false` | propext, Classical.choice, Quot.sound |
| `Verif.PubKey.C91_verify` | propext, Classical.choice, Quot.sound |
| `Verif.PubKey.C91_token` | propext, Classical.choice, Quot.sound |
| `Verif.PubKey.C91_challenge` | propext, Classical.choice, Quot.sound |
| `Verif.PubKey.C91_sigtype` | propext, Classical.choice, Quot.sound |
| `Verif.PubKey.C91_named` | propext, Classical.choice, Quot.sound |
| `Verif.PubKey.C91_both` | propext, Classical.choice, Quot.sound |
| `Verif.PubKey.C91_rsa` | propext, Classical.choice, Quot.sound |
| `Verif.PubKey.C91_algorithm_false` | propext |
| `Verif.Exch.C92_received` | propext, Classical.choice, Quot.sound |
| `Verif.Exch.C92_limit` | propext, Quot.sound |
| `Verif.Exch.C92_server_to_client` | propext, Classical.choice, Quot.sound |
| `Verif.Exch.C92_client_to_server` | propext, Classical.choice, Quot.sound |
| `Verif.Dyn.C93_target` | propext, Classical.choice, Quot.sound |
| `Verif.Dyn.C93_refused` | propext, Classical.choice, Quot.sound |
| `Verif.Dyn.C93_pieces` | propext, Quot.sound |
| `Verif.Dyn.C93_mixed_false` | propext |
| `Verif.Dyn.C93_nul_false` | propext |
| `Verif.Dyn.C94_passed` | propext, Classical.choice, Quot.sound |
| `Verif.Dyn.C94_refused` | propext, Classical.choice, Quot.sound |
| `Verif.Dyn.C94_pieces` | propext, Classical.choice, Quot.sound |
| `Verif.Dyn.C94_decided` | propext, Classical.choice, Quot.sound |
| `Verif.Dyn.C94_late` | propext |
| `Verif.Dyn.C94_secret` | propext, Classical.choice, Quot.sound |
| `Verif.UserKey.C95_only` | propext, Quot.sound |
| `Verif.UserKey.C95_every` | propext, Quot.sound |
| `Verif.UserKey.C95_order` | propext, Quot.sound |
| `Verif.UserKey.C95_strict` | propext, Classical.choice, Quot.sound |
| `Verif.UserKey.C96_trusted` | propext, Classical.choice, Quot.sound |
| `Verif.UserKey.C96_nobody` | propext, Classical.choice, Quot.sound |
| `Verif.UserKey.C96_opened` | propext, Quot.sound |
| `Verif.UserKey.C97_accepted` | propext, Classical.choice, Quot.sound |
| `Verif.UserKey.C97_query` | propext, Classical.choice, Quot.sound |
| `Verif.UserKey.C97_binding` | propext, Classical.choice, Quot.sound |
| `Verif.HostBased.C98_accepted` | propext, Classical.choice, Quot.sound |
| `Verif.HostBased.C98_allowed` | propext, Classical.choice, Quot.sound |
| `Verif.HostBased.C98_binding` | propext, Classical.choice, Quot.sound |
| `Verif.HostBased.Examples.C98_trailing` | propext |
| `Verif.HostBased.Examples.C98_critical_false` | propext |
| `Verif.HostBased.Examples.C98_second_false` | propext |
| `Verif.HostBased.C99_trusted` | propext, Classical.choice, Quot.sound |
| `Verif.HostBased.C99_lines` | propext |
| `Verif.HostBased.Examples.C99_comment_false` | propext |
| `Verif.HostBased.C100_valid` | propext, Classical.choice, Quot.sound |
| `Verif.HostBased.C100_signs` | propext, Classical.choice, Quot.sound |
| `Verif.HostBased.C100_honest` | propext, Classical.choice, Quot.sound |
| `Verif.Show.C101_shown` | propext, Classical.choice, Quot.sound |
| `Verif.Show.C101_clean` | propext, Classical.choice, Quot.sound |
| `Verif.Show.C101_controls` | propext, Classical.choice, Quot.sound |
| `Verif.Show.C101_printed` | propext, Classical.choice, Quot.sound |
| `Verif.Show.C101_ambiguous` | propext, Quot.sound |
| `Verif.Show.C102_fits` | propext, Classical.choice, Quot.sound |
| `Verif.Show.C102_result` | propext, Classical.choice, Quot.sound |
| `Verif.Show.C102_log` | propext, Classical.choice, Quot.sound |
| `Verif.Show.C102_whole` | propext, Classical.choice, Quot.sound |
| `Verif.Show.C102_injective` | propext, Quot.sound |
| `Verif.Show.C102_stderr` | propext, Classical.choice, Quot.sound |
| `Verif.Show.C102_one` | propext, Quot.sound |
| `Verif.Show.C102_lines` | propext, Quot.sound |
| `Verif.Session.C103_step` | propext, Classical.choice, Quot.sound |
| `Verif.Session.C103_once` | propext, Quot.sound |
| `Verif.Session.C103_forced` | propext, Quot.sound |
| `Verif.Session.C103_signals` | propext, Quot.sound |
| `Verif.Session.C103_permits` | propext, Quot.sound |
| `Verif.Session.C103_launched` | propext, Quot.sound |
| `Verif.Session.C103_tab` | propext |
| `Verif.Session.C103_stale` | propext |
| `Verif.Session.C104_last` | propext, Classical.choice, Quot.sound |
| `Verif.Session.C104_room` | propext, Classical.choice, Quot.sound |
| `Verif.Session.C104_connection` | propext, Classical.choice, Quot.sound |
| `Verif.Session.C104_client` | propext, Classical.choice, Quot.sound |
| `Verif.Session.C104_user` | propext, Classical.choice, Quot.sound |
| `Verif.Session.C104_keyVar` | propext, Quot.sound |
| `Verif.Session.C104_line` | propext, Quot.sound |
| `Verif.Session.C104_pam` | propext, Classical.choice, Quot.sound |
| `Verif.Session.C104_lines` | propext, Quot.sound |
| `Verif.Session.C104_account` | propext, Classical.choice, Quot.sound |
| `Verif.Session.C104_original_false` | propext |
| `Verif.Session.C105_chroot` | propext, Quot.sound |
| `Verif.Session.C105_xauth` | propext, Quot.sound |
| `Verif.Session.C105_rc` | propext, Quot.sound |
| `Verif.CliAuth.C106_first` | propext, Classical.choice, Quot.sound |
| `Verif.CliAuth.C106_progress` | propext, Classical.choice, Quot.sound |
| `Verif.CliAuth.C106_gives_up` | propext, Classical.choice, Quot.sound |
| `Verif.CliAuth.C106_given_up` | propext, Classical.choice, Quot.sound |
| `Verif.CliAuth.C106_attempts` | propext, Classical.choice, Quot.sound |
| `Verif.CliAuth.C106_batch_partial` | propext, Classical.choice, Quot.sound |
| `Verif.CliAuth.C106_requests` | propext, Classical.choice, Quot.sound |
| `Verif.CliAuth.C106_preferences` | propext |
| `Verif.CliAuth.C106_batch_original_false` | propext |
| `Verif.CliAuth.C107_listed` | propext, Classical.choice, Quot.sound |
| `Verif.CliAuth.C107_offered` | propext, Classical.choice, Quot.sound |
| `Verif.CliAuth.C107_identities_only` | none |
| `Verif.CliAuth.C107_once` | propext, Classical.choice, Quot.sound |
| `Verif.CliAuth.C108_signs_partial` | propext, Classical.choice, Quot.sound |
| `Verif.CliAuth.C108_sent` | propext, Classical.choice, Quot.sound |
| `Verif.CliAuth.C108_agrees` | propext |
| `Verif.CliAuth.C108_crash_partial` | propext, Classical.choice, Quot.sound |
| `Verif.CliAuth.C108_signs_original_false` | propext |
| `Verif.CliAuth.C108_crash_original_false` | propext |
| `Verif.CliAuth.C109_answers` | propext, Classical.choice, Quot.sound |
| `Verif.CliAuth.C109_success` | propext, Classical.choice, Quot.sound |
| `Verif.CliAuth.C109_order` | propext, Classical.choice, Quot.sound |
| `Verif.CliAuth.C109_unexpected` | propext, Classical.choice, Quot.sound |
| `Verif.CliAuth.C109_questions` | propext, Classical.choice, Quot.sound |
| `Verif.Sandbox.C110_exact` | propext, Classical.choice, Quot.sound |
| `Verif.Sandbox.C110_others` | propext, Classical.choice, Quot.sound |
| `Verif.Sandbox.C110_no_exec` | propext, Classical.choice, Quot.sound |
| `Verif.Sandbox.C110_futex_time64` | propext, Classical.choice, Quot.sound |
| `Verif.Sandbox.C110_accepted` | propext, Classical.choice, Quot.sound |
| `Verif.Sandbox.C110_entered` | propext |
| `Verif.Sandbox.C110_without` | none |
| `Verif.Uid.C111_permanent` | none |
| `Verif.Uid.C111_forever` | propext, Quot.sound |
| `Verif.Uid.C111_verified` | propext |
| `Verif.Uid.C111_effective` | none |
| `Verif.Uid.C111_possible` | propext |
| `Verif.Uid.C111_history` | propext, Quot.sound |
| `Verif.Uid.C111_round` | propext, Quot.sound |
| `Verif.Uid.C111_unprivileged` | none |
| `Verif.Loop.C112_entitled` | propext, Classical.choice, Quot.sound |
| `Verif.Loop.C112_served` | propext, Classical.choice, Quot.sound |
| `Verif.Loop.C112_answered` | propext, Classical.choice, Quot.sound |
| `Verif.Loop.C112_outcome` | propext, Classical.choice, Quot.sound |
| `Verif.Loop.C112_success` | propext, Classical.choice, Quot.sound |
| `Verif.Loop.C112_goes_on` | propext, Classical.choice, Quot.sound |
| `Verif.Loop.C112_granted` | propext, Classical.choice, Quot.sound |
| `Verif.Loop.C112_grants` | propext, Classical.choice, Quot.sound |
| `Verif.Loop.C112_global_answer` | propext, Classical.choice, Quot.sound |
| `Verif.Loop.C112_listen_answer` | propext, Classical.choice, Quot.sound |
| `Verif.Loop.C112_no_more_noted` | propext, Classical.choice, Quot.sound |
| `Verif.Loop.C112_no_more` | propext, Classical.choice, Quot.sound |
| `Verif.Loop.C112_connections` | propext, Classical.choice, Quot.sound |
| `Verif.Loop.C112_listeners` | propext, Classical.choice, Quot.sound |
| `Verif.Loop.C112_request` | propext, Classical.choice, Quot.sound |
| `Verif.Loop.C112_path_partial` | propext, Quot.sound |
| `Verif.Loop.C112_path_original_false` | propext, Classical.choice, Quot.sound |
| `Verif.Loop.C112_disable_partial` | propext, Classical.choice, Quot.sound |
| `Verif.Loop.C112_disable_original_false` | propext |
| `Verif.Loop.C113_invited` | propext, Classical.choice, Quot.sound |
| `Verif.Loop.C113_served` | propext, Classical.choice, Quot.sound |
| `Verif.Loop.C113_forwarded` | propext, Classical.choice, Quot.sound |
| `Verif.Loop.C113_answered` | propext, Classical.choice, Quot.sound |
| `Verif.Loop.C113_outcome` | propext, Classical.choice, Quot.sound |
| `Verif.Loop.C113_goes_on` | propext, Classical.choice, Quot.sound |
| `Verif.Loop.C113_global` | propext, Classical.choice, Quot.sound |
| `Verif.Loop.C113_path_partial` | propext, Classical.choice, Quot.sound |
| `Verif.Loop.C114_pieces` | propext |
| `Verif.Loop.C114_end` | propext |
| `Verif.Loop.C114_recognised` | propext, Quot.sound |
| `Verif.Loop.C114_runs` | propext, Quot.sound |
| `Verif.Loop.C114_plain` | propext, Classical.choice, Quot.sound |
| `Verif.Loop.C114_other` | propext, Quot.sound |
| `Verif.Loop.C114_shared` | propext, Quot.sound |
| `Verif.Loop.C114_cmdline` | propext, Quot.sound |
| `Verif.Loop.C114_typable` | propext, Classical.choice, Quot.sound |
| `Verif.Loop.C114_twice_partial` | propext |
| `Verif.Loop.C114_twice_original_false` | propext |
| `Verif.Loop.C114_separate_partial` | propext |
| `Verif.Loop.C114_separate_original_false` | propext |
| `Verif.Loop.C115_fifo` | propext, Quot.sound |
| `Verif.Loop.C115_client_alive` | propext, Quot.sound |
| `Verif.Loop.C115_server_alive` | propext, Quot.sound |
| `Verif.Loop.C116_setup` | propext, Quot.sound |
| `Verif.Loop.C116_only` | propext, Quot.sound |
| `Verif.Loop.C116_run` | propext, Quot.sound |
| `Verif.Dns.C117_flags` | propext, Classical.choice, Quot.sound |
| `Verif.Dns.C117_other` | propext, Classical.choice, Quot.sound |
| `Verif.Dns.C117_accepted` | propext, Classical.choice, Quot.sound |
| `Verif.Dns.C117_warned` | propext, Classical.choice, Quot.sound |
| `Verif.Dns.C117_noted` | propext, Classical.choice, Quot.sound |
| `Verif.Dns.C117_connected` | propext, Classical.choice, Quot.sound |
| `Verif.Dns.C117_worthless` | propext |
| `Verif.Dns.C117_silenced` | propext |
| `Verif.Dns.C117_sk` | propext |
| `Verif.Dns.C118_printed` | propext, Classical.choice, Quot.sound |
| `Verif.Dns.C118_other` | propext, Classical.choice, Quot.sound |
| `Verif.Dns.C118_accepted` | propext, Classical.choice, Quot.sound |
| `Verif.Dns.C118_others` | propext, Classical.choice, Quot.sound |
| `Verif.Dns.C118_complete` | propext, Quot.sound |
| `Verif.Dns.C119_read` | propext, Classical.choice, Quot.sound |
| `Verif.Dns.C119_inside` | propext, Quot.sound |
| `Verif.Dns.C119_records` | propext, Classical.choice, Quot.sound |
| `Verif.Dns.C119_asked` | propext, Classical.choice, Quot.sound |
| `Verif.Dns.C119_null` | propext, Classical.choice, Quot.sound |
| `Verif.Dns.C119_null_case` | propext, Quot.sound |
| `Verif.Dns.C119_other_type` | propext, Quot.sound |
| `Verif.Target.C120_name` | propext, Classical.choice, Quot.sound |
| `Verif.Target.C120_safe` | propext, Classical.choice, Quot.sound |
| `Verif.Target.C120_possible` | propext, Classical.choice, Quot.sound |
| `Verif.Target.C120_off` | propext, Classical.choice, Quot.sound |
| `Verif.Target.C120_proxied` | propext, Classical.choice, Quot.sound |
| `Verif.Target.C120_no_fallback` | propext, Classical.choice, Quot.sound |
| `Verif.Target.C121_destination` | propext, Classical.choice, Quot.sound |
| `Verif.Target.C121_hop` | propext, Classical.choice, Quot.sound |
| `Verif.Target.C121_order_partial` | propext, Quot.sound |
| `Verif.Target.C121_order_false` | propext |
| `Verif.Target.C122_host` | propext, Quot.sound |
| `Verif.Target.C122_alias` | propext |
| `Verif.Target.C122_target` | propext, Classical.choice, Quot.sound |
| `Verif.Target.C122_template` | propext |
| `Verif.Target.C122_user_partial` | propext, Quot.sound |
| `Verif.Target.C122_user_false` | propext |
| `Verif.Target.C122_jump_partial` | propext, Classical.choice, Quot.sound |
| `Verif.Target.C122_jump_false` | propext |
| `Verif.Target.C122_jump_words` | propext, Quot.sound |
| `Verif.Mux.C123_answers` | propext, Classical.choice, Quot.sound |
| `Verif.Mux.C123_greeting` | propext, Classical.choice, Quot.sound |
| `Verif.Mux.C123_malformed` | propext, Classical.choice, Quot.sound |
| `Verif.Mux.C123_unknown` | propext, Classical.choice, Quot.sound |
| `Verif.Mux.C123_waits` | propext |
| `Verif.Mux.C123_alive` | propext, Classical.choice, Quot.sound |
| `Verif.Mux.C123_survives_partial` | propext, Classical.choice, Quot.sound |
| `Verif.Mux.C123_survives_original_false` | propext |
| `Verif.Mux.C123_undefined` | propext |
| `Verif.Mux.C123_proxy` | propext, Classical.choice, Quot.sound |
| `Verif.Mux.C123_stopped` | propext, Classical.choice, Quot.sound |
| `Verif.Mux.C124_asked_partial` | propext, Quot.sound |
| `Verif.Mux.C124_quiet` | propext, Quot.sound |
| `Verif.Mux.C124_refused` | propext, Quot.sound |
| `Verif.Mux.C124_asked_original_false` | propext |
| `Verif.Mux.C124_unasked_close` | propext |
| `Verif.Mux.C124_dynamic_fixed` | propext |
| `Verif.Mux.C125_permitted` | propext, Classical.choice, Quot.sound |
| `Verif.Mux.C125_single` | propext, Classical.choice, Quot.sound |
| `Verif.Mux.C125_opened` | propext, Classical.choice, Quot.sound |
| `Verif.Mux.C125_confirmed` | propext |
| `Verif.Mux.C125_stdio_opened` | propext, Classical.choice, Quot.sound |
| `Verif.Mux.C125_stdio_confirmed` | propext |
| `Verif.Mux.C126_forward_sent` | propext, Classical.choice, Quot.sound |
| `Verif.Mux.C126_session_sent` | propext, Classical.choice, Quot.sound |
| `Verif.Mux.C126_own` | propext, Classical.choice, Quot.sound |
| `Verif.Mux.C126_forward_done` | propext, Classical.choice, Quot.sound |
| `Verif.Mux.C126_exit` | propext, Classical.choice, Quot.sound |
| `Verif.Mux.C126_session_exit` | propext, Classical.choice, Quot.sound |
| `Verif.Mux.C126_commands_partial` | propext, Classical.choice, Quot.sound |
| `Verif.Mux.C126_all` | propext, Quot.sound |
| `Verif.Mux.C126_commands_original_false` | propext |
| `Verif.Mux.C126_stdio_lost` | propext |
| `Verif.Mux.C126_command_ignored` | propext |
| `Verif.Mux.C126_wanted` | propext, Quot.sound |
| `Verif.Mux.C126_session` | propext |
| `Verif.Mux.C126_stdio_asked` | propext |
| `Verif.Mux.C126_greeted` | propext, Classical.choice, Quot.sound |
| `Verif.Mux.C127_opened_partial` | propext, Classical.choice, Quot.sound |
| `Verif.Mux.C127_opens` | propext, Classical.choice, Quot.sound |
| `Verif.Mux.C127_closed_partial` | propext, Classical.choice, Quot.sound |
| `Verif.Mux.C127_once` | propext, Classical.choice, Quot.sound |
| `Verif.Mux.C127_closed_gone` | propext, Quot.sound |
| `Verif.Mux.C127_confirmed` | propext, Classical.choice, Quot.sound |
| `Verif.Mux.C127_opened_original_false` | propext, Classical.choice, Quot.sound |
| `Verif.Mux.C127_closed_original_false` | propext, Classical.choice, Quot.sound |
| `Verif.Mux.C128_exact` | propext, Classical.choice, Quot.sound |
| `Verif.Mux.C128_same` | propext, Classical.choice, Quot.sound |
| `Verif.Mux.C128_complete` | propext, Classical.choice, Quot.sound |
| `Verif.Proxy.C129_routed` | propext, Classical.choice, Quot.sound |
| `Verif.Proxy.C129_arrives` | propext, Classical.choice, Quot.sound |
| `Verif.Proxy.C129_stays` | propext, Classical.choice, Quot.sound |
| `Verif.Proxy.C129_sent` | propext, Classical.choice, Quot.sound |
| `Verif.Proxy.C129_refused` | propext, Classical.choice, Quot.sound |
| `Verif.Proxy.C129_forwarded` | propext, Classical.choice, Quot.sound |
| `Verif.Proxy.C129_others` | propext |
| `Verif.Proxy.C130_leaves` | propext, Quot.sound |
| `Verif.Proxy.C130_answers_partial` | propext, Quot.sound |
| `Verif.Proxy.C130_stays_gone` | propext, Classical.choice, Quot.sound |
| `Verif.Proxy.C130_separate_partial` | propext, Classical.choice, Quot.sound |
| `Verif.Proxy.C130_defined_partial` | propext, Classical.choice, Quot.sound |
| `Verif.Proxy.C130_survives_partial` | propext, Classical.choice, Quot.sound |
| `Verif.Proxy.C130_separate_original_false` | propext, Quot.sound |
| `Verif.Proxy.C130_defined_original_false` | propext |
| `Verif.Proxy.C130_survives_original_false` | propext |
| `Verif.Proxy.C130_answers_original_false` | propext |
| `Verif.Pace.C131_times` | propext, Classical.choice, Quot.sound |
| `Verif.Pace.C131_held` | propext, Classical.choice, Quot.sound |
| `Verif.Pace.C131_interval` | propext, Classical.choice, Quot.sound |
| `Verif.Pace.C132_starts` | propext, Classical.choice, Quot.sound |
| `Verif.Pace.C132_ends` | propext, Classical.choice, Quot.sound |
| `Verif.Pace.C132_lasts` | propext, Classical.choice, Quot.sound |
| `Verif.Pace.C132_covered` | propext, Classical.choice, Quot.sound |
| `Verif.Pace.C132_only` | propext, Classical.choice, Quot.sound |
| `Verif.Pace.C132_length` | propext |
| `Verif.Pace.C133_off` | none |
| `Verif.Pace.C133_released` | propext, Classical.choice, Quot.sound |
| `Verif.Pace.C133_delay_partial` | propext, Classical.choice, Quot.sound |
| `Verif.Pace.C133_x11_partial` | propext, Classical.choice, Quot.sound |
| `Verif.Pace.C133_delay_original_false` | propext, Quot.sound |
| `Verif.Pace.C133_x11_original_false` | propext |
| `Verif.Listen.C134_client` | propext |
| `Verif.Listen.C134_no` | propext, Quot.sound |
| `Verif.Listen.C134_yes` | propext, Quot.sound |
| `Verif.Listen.C134_specified` | propext, Quot.sound |
| `Verif.Listen.C135_answer` | propext, Quot.sound |
| `Verif.Listen.C135_cancel` | propext, Quot.sound |
| `Verif.Listen.C135_permitted` | propext, Quot.sound |
| `Verif.Listen.C135_undone_partial` | propext, Quot.sound |
| `Verif.Listen.C135_local_partial` | propext, Classical.choice, Quot.sound |
| `Verif.Listen.Examples.C135_undone_original_false` | none |
| `Verif.Listen.Examples.C135_local_original_false` | propext |
| `Verif.Listen.Examples.C135_address_original_false` | propext |
| `Verif.Listen.C136_first` | propext, Classical.choice, Quot.sound |
| `Verif.Listen.C136_where` | propext, Classical.choice, Quot.sound |
| `Verif.Listen.C136_offset` | propext, Quot.sound |
| `Verif.Listen.C136_failed_partial` | propext |
| `Verif.Listen.Examples.C136_failed_original_false` | none |
| `Verif.HostAlg.C137_order` | propext, Classical.choice, Quot.sound |
| `Verif.HostAlg.C137_same` | propext, Classical.choice, Quot.sound |
| `Verif.HostAlg.C137_negotiated_partial` | propext, Classical.choice, Quot.sound |
| `Verif.HostAlg.C137_expected_partial` | propext, Classical.choice, Quot.sound |
| `Verif.HostAlg.Examples.C137_negotiated_original_false` | propext |
| `Verif.HostAlg.Examples.C137_revoked_original_false` | none |
| `Verif.Finger.C138_hex` | propext, Quot.sound |
| `Verif.Finger.C138_b64` | propext, Classical.choice, Quot.sound |
| `Verif.Finger.C138_babble` | propext, Classical.choice, Quot.sound |
| `Verif.Finger.C138_distinct` | propext, Classical.choice, Quot.sound |
| `Verif.Finger.Examples.C138_babble_algorithm` | propext |
| `Verif.Finger.C139_picture` | propext, Classical.choice, Quot.sound |
| `Verif.Finger.C139_borders_partial` | propext, Classical.choice, Quot.sound |
| `Verif.Finger.C139_same_picture` | propext, Classical.choice, Quot.sound |
| `Verif.Finger.Examples.C139_title_cut` | propext |
| `Verif.Handover.C140_kept` | propext, Classical.choice, Quot.sound |
| `Verif.Handover.C140_sent` | propext, Quot.sound |
| `Verif.Handover.C140_untrusted` | propext, Classical.choice, Quot.sound |
| `Verif.Handover.C140_hidden` | propext, Quot.sound |
| `Verif.Handover.C140_copy` | none |
| `Verif.Handover.C141_continues` | propext, Classical.choice, Quot.sound |
| `Verif.Handover.C141_session` | propext |
| `Verif.Handover.C141_accepted` | propext, Classical.choice, Quot.sound |
| `Verif.Handover.C141_whole` | propext, Classical.choice, Quot.sound |
| `Verif.Handover.C141_safe_partial` | propext, Quot.sound |
| `Verif.Handover.Examples.C141_safe_original_false` | propext |
| `Verif.Issue.C142_last` | propext, Quot.sound |
| `Verif.Issue.C142_granted` | propext, Classical.choice, Quot.sound |
| `Verif.Issue.C142_permission` | propext, Classical.choice, Quot.sound |
| `Verif.Issue.C142_refused` | propext, Classical.choice, Quot.sound |
| `Verif.Issue.C142_ordered` | propext, Quot.sound |
| `Verif.Issue.Examples.C142_clear_restriction` | propext, Quot.sound |
| `Verif.Issue.Examples.C142_own` | propext, Quot.sound |
| `Verif.Cookie.C143_hidden` | propext |
| `Verif.Cookie.C143_screen` | propext, Quot.sound |
| `Verif.Cookie.C143_first` | propext, Quot.sound |
| `Verif.Cookie.C143_later` | propext, Quot.sound |
| `Verif.Cookie.C143_reaches` | propext, Quot.sound |
| `Verif.Cookie.C143_safe_partial` | propext, Quot.sound |
| `Verif.Cookie.Examples.C143_safe_original_false` | propext |
| `Verif.Cookie.C144_untrusted` | propext, Quot.sound |
| `Verif.Cookie.C144_words` | propext, Quot.sound |
| `Verif.Cookie.C144_display` | propext, Classical.choice, Quot.sound |
| `Verif.Cookie.C144_outlives` | propext, Quot.sound |
| `Verif.Cookie.C144_trusted` | propext, Quot.sound |
| `Verif.Issue.C145_point` | propext, Classical.choice, Quot.sound |
| `Verif.Issue.C145_times` | propext, Classical.choice, Quot.sound |
| `Verif.Issue.C145_not_empty` | propext, Classical.choice, Quot.sound |
| `Verif.Issue.C145_accepted` | propext, Quot.sound |
| `Verif.Argv.C146_names` | propext, Quot.sound |
| `Verif.Argv.C146_safe_partial` | propext, Quot.sound |
| `Verif.Argv.Examples.C146_read_original_false` | propext |
| `Verif.Argv.Examples.C146_write_original_false` | propext, Quot.sound |
| `Verif.Operand.C147_split` | propext, Quot.sound |
| `Verif.Operand.C147_local` | propext, Quot.sound |
| `Verif.Operand.C147_plain` | propext, Quot.sound |
| `Verif.Operand.C147_brackets` | propext, Quot.sound |
| `Verif.Kdf.C148_key` | propext, Classical.choice, Quot.sound |
| `Verif.Kdf.C148_refused` | propext, Quot.sound |
| `Verif.Shield.C149_open` | propext, Classical.choice, Quot.sound |
| `Verif.Shield.C149_hidden` | propext, Classical.choice, Quot.sound |
| `Verif.Shield.C149_same` | propext, Classical.choice, Quot.sound |
| `Verif.Hmac.C150_codes` | propext, Quot.sound |
| `Verif.Hmac.C150_packet` | propext, Quot.sound |
