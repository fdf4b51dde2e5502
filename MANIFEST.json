{"claims": [
  {"property": "C01", "status": "proved", "theorems": ["Pfp.Props.C01_generated_length"], "note": ""},
  {"property": "C02", "status": "proved", "theorems": ["Pfp.Props.C02_generated_characters"], "note": ""},
  {"property": "C03", "status": "proved", "theorems": ["Pfp.Props.C03_every_class_occurs"], "note": ""},
  {"property": "C04", "status": "proved", "theorems": ["Pfp.Props.C04_short_no_repeat"], "note": ""},
  {"property": "C05", "status": "proved", "theorems": ["Pfp.Props.C05_no_characters", "Pfp.Props.C05_retrievable", "Pfp.Props.C05_parameters", "Pfp.Props.C05_empty_charset_panics"], "note": ""},
  {"property": "C06", "status": "proved", "theorems": ["Pfp.Props.C06_deterministic", "Pfp.Props.C06_listed"], "note": ""},
  {"property": "C07", "status": "proved", "theorems": ["Pfp.Props.C07_salts_distinct", "Pfp.Props.C07_nul_collision"], "note": ""},
  {"property": "C08", "status": "proved", "theorems": ["Pfp.Props.C08_base32_encode", "Pfp.Props.C08_base32_decode"], "note": ""},
  {"property": "C09", "status": "proved", "theorems": ["Pfp.Props.C09_checksum_detects", "Pfp.Props.C09_checksum_bijective"], "note": ""},
  {"property": "C10", "status": "proved", "theorems": ["Pfp.Props.C10_format_code"], "note": ""},
  {"property": "C11", "status": "proved", "theorems": ["Pfp.Props.C11_recovery_roundtrip"], "note": ""},
  {"property": "C12", "status": "proved", "theorems": ["Pfp.Props.C12_layout_ignored"], "note": ""},
  {"property": "C13", "status": "proved", "theorems": ["Pfp.Props.C13_code_shape", "Pfp.Props.C13_generate_succeeds_iff", "Pfp.Props.C13_same_padded_length_same_shape"], "note": ""},
  {"property": "C14", "status": "proved", "theorems": ["Pfp.Props.C14_incomplete"], "note": ""},
  {"property": "C15", "status": "proved", "theorems": ["Pfp.Props.C15_extra_data"], "note": ""},
  {"property": "C16", "status": "proved", "theorems": ["Pfp.Props.C16_one_byte_error", "Pfp.Props.C16_changed_text_exists"], "note": ""},
  {"property": "C17", "status": "proved", "theorems": ["Pfp.Props.C17_mixed_up_lines", "Pfp.Props.C17_long_codes_exchange"], "note": ""},
  {"property": "C18", "status": "proved", "theorems": ["Pfp.Props.C18_no_panic", "Pfp.Props.C18_release_never_panics", "Pfp.Props.C18_long_code_panics"], "note": ""},
  {"property": "C19", "status": "proved", "theorems": ["Pfp.Props.C19_trailing_nuls_lost", "Pfp.Props.C19_empty_password"], "note": ""},
  {"property": "C20", "status": "proved", "theorems": ["Pfp.Props.C20_stored", "Pfp.Props.C20_generated"], "note": ""},
  {"property": "C21", "status": "proved", "theorems": ["Pfp.Props.C21_abstract_map"], "note": ""},
  {"property": "C22", "status": "proved", "theorems": ["Pfp.Props.C22_others_untouched"], "note": ""},
  {"property": "C23", "status": "proved", "theorems": ["Pfp.Props.C23_removed", "Pfp.Props.C23_remove_result"], "note": ""},
  {"property": "C24", "status": "proved", "theorems": ["Pfp.Props.C24_has_agrees"], "note": ""},
  {"property": "C25", "status": "proved", "theorems": ["Pfp.Props.C25_revision_one"], "note": ""},
  {"property": "C26", "status": "proved", "theorems": ["Pfp.Props.C26_www_ignored", "Pfp.Props.C26_only_once"], "note": ""},
  {"property": "C27", "status": "proved", "theorems": ["Pfp.Props.C27_interchangeable", "Pfp.Props.C27_alias_lasts", "Pfp.Props.C27_others"], "note": ""},
  {"property": "C28", "status": "proved", "theorems": ["Pfp.Props.C28_site_has_passwords", "Pfp.Props.C28_outcomes"], "note": ""},
  {"property": "C29", "status": "proved", "theorems": ["Pfp.Props.C29_remove_alias"], "note": ""},
  {"property": "C30", "status": "proved", "theorems": ["Pfp.Props.C30_chains_and_cycles"], "note": ""},
  {"property": "C31", "status": "proved", "theorems": ["Pfp.Props.C31_set_notes", "Pfp.Props.C31_notes_dropped"], "note": ""},
  {"property": "C32", "status": "proved", "theorems": ["Pfp.Props.C32_refused", "Pfp.Props.C32_together", "Pfp.Props.C32_locked"], "note": ""},
  {"property": "C33", "status": "proved", "theorems": ["Pfp.Props.C33_lock_unlock", "Pfp.Props.C33_exactly_the_password", "Pfp.Props.C33_failure_changes_nothing", "Pfp.Props.C33_authenticated"], "note": ""},
  {"property": "C34", "status": "proved", "theorems": ["Pfp.Props.C34_reset"], "note": ""},
  {"property": "C35", "status": "proved", "theorems": ["Pfp.Props.C35_written", "Pfp.Props.C35_durable"], "note": ""},
  {"property": "C36", "status": "proved", "theorems": ["Pfp.Props.C36_reported", "Pfp.Props.C36_which_error", "Pfp.Props.C36_memory", "Pfp.Props.C36_next_write", "Pfp.Props.C36_failed_reset", "Pfp.Props.C36_data_loss"], "note": ""},
  {"property": "C37", "status": "proved", "theorems": ["Pfp.Props.C37_torn_write_detected", "Pfp.Props.C37_failed_write_detected", "Pfp.Props.C37_crash_can_lose_everything"], "note": ""},
  {"property": "C38", "status": "proved", "theorems": ["Pfp.Props.C38_file_roundtrip", "Pfp.Props.C38_only_storages_load", "Pfp.Props.C38_storages_load"], "note": ""},
  {"property": "C39", "status": "proved", "theorems": ["Pfp.Props.C39_password_roundtrip", "Pfp.Props.C39_site_roundtrip", "Pfp.Props.C39_kinds_disjoint"], "note": ""},
  {"property": "C40", "status": "proved", "theorems": ["Pfp.Props.C40_base64_accepted", "Pfp.Props.C40_encrypt_roundtrip", "Pfp.Props.C40_decrypt_outcomes"], "note": ""},
  {"property": "C41", "status": "proved", "theorems": ["Pfp.Props.C41_memory", "Pfp.Props.C41_file"], "note": ""},
  {"property": "C42", "status": "proved", "theorems": ["Pfp.Props.C42_fresh_nonces", "Pfp.Props.C42_reset", "Pfp.Props.C42_progress", "Pfp.Props.C42_histories", "Pfp.Props.C42_recovery_code"], "note": ""},
  {"property": "C43", "status": "proved", "theorems": ["Pfp.Props.C43_sound", "Pfp.Props.C43_complete"], "note": ""},
  {"property": "C44", "status": "proved", "theorems": ["Pfp.Props.C44_sites", "Pfp.Props.C44_stored_is_listed"], "note": ""},
  {"property": "C45", "status": "proved", "theorems": ["Pfp.Props.C45_remove_sites", "Pfp.Props.C45_missing"], "note": ""},
  {"property": "C46", "status": "proved", "theorems": ["Pfp.Props.C46_add", "Pfp.Props.C46_add_stored", "Pfp.Props.C46_add_stores", "Pfp.Props.C46_add_stored_stores", "Pfp.Props.C46_set_primary", "Pfp.Props.C46_unreadable_replaced"], "note": ""},
  {"property": "C47", "status": "proved", "theorems": ["Pfp.Props.C47_set", "Pfp.Props.C47_refused", "Pfp.Props.C47_trim"], "note": ""},
  {"property": "C48", "status": "proved", "theorems": ["Pfp.Props.C48_already", "Pfp.Props.C48_not_initialized", "Pfp.Props.C48_first_accepted", "Pfp.Props.C48_never_gives_up", "Pfp.Props.C48_no_effect", "Pfp.Props.C48_lines_left", "Pfp.Props.C48_by_a_line", "Pfp.Props.C48_commands"], "note": ""},
  {"property": "C49", "status": "proved", "theorems": ["Pfp.Props.C49_effect", "Pfp.Props.C49_removals", "Pfp.Props.C49_only_empty_sites", "Pfp.Props.C49_chain_broken", "Pfp.Props.C49_www_removed"], "note": ""},
  {"property": "C50", "status": "proved", "theorems": ["Pfp.Props.C50_dangling_alias_fails", "Pfp.Props.C50_dangling_alias_error", "Pfp.Props.C50_otherwise_succeeds", "Pfp.Props.C50_alias_then_list"], "note": ""},
  {"property": "C51", "status": "proved", "theorems": ["Pfp.Props.C51_order_irrelevant", "Pfp.Props.C51_ties"], "note": ""},
  {"property": "C52", "status": "proved", "theorems": ["Pfp.Props.C52_no_panic", "Pfp.Props.C52_pieces", "Pfp.Props.C52_extra", "Pfp.Props.C52_typos", "Pfp.Props.C52_lines_kept", "Pfp.Props.C52_wrong_byte", "Pfp.Props.C52_typo_may_abort"], "note": ""},
  {"property": "C53", "status": "proved", "theorems": ["Pfp.Props.C53_operations", "Pfp.Props.C53_no_reset", "Pfp.Props.C53_no_error", "Pfp.Props.C53_exit", "Pfp.Props.C53_ignored", "Pfp.Props.C53_told", "Pfp.Props.C53_continues", "Pfp.Props.C53_lock"], "note": ""},
  {"property": "C54", "status": "proved", "theorems": ["Pfp.Props.C54_key_salt_injective"], "note": ""},
  {"property": "C55", "status": "proved", "theorems": ["Pfp.Props.C55_modules", "Pfp.Props.C55_determines"], "note": ""},
  {"property": "C56", "status": "proved", "theorems": ["Pfp.Props.C56_decrypt", "Pfp.Props.C56_alias", "Pfp.Props.C56_get", "Pfp.Props.C56_list", "Pfp.Props.C56_list_sites", "Pfp.Props.C56_stored"], "note": ""},
  {"property": "C57", "status": "proved", "theorems": ["Pfp.Props.C57_length"], "note": ""},
  {"property": "C58", "status": "proved", "theorems": ["Pfp.Props.C58_every_conforming_password_possible"], "note": ""},
  {"property": "C59", "status": "proved", "theorems": ["Pfp.Props.C59_recovery_code", "Pfp.Props.C59_remove_sites", "Pfp.Props.C59_failure_changes_nothing"], "note": ""},
  {"property": "C60", "status": "proved", "theorems": ["Pfp.Props.C60_commands", "Pfp.Props.C60_command_reachable", "Pfp.Props.C60_shell_reachable", "Pfp.Props.C60_main"], "note": ""},
  {"property": "C61", "status": "proved", "theorems": ["Pfp.Props.C61_list_text"], "note": ""},
  {"property": "C62", "status": "proved", "theorems": ["Pfp.Props.C62_code_exists", "Pfp.Props.C62_decodes_elsewhere", "Pfp.Props.C62_restored", "Pfp.Props.C62_lines"], "note": ""},
  {"property": "C63", "status": "proved", "theorems": ["Pfp.Props.C63_each_process", "Pfp.Props.C63_undisturbed", "Pfp.Props.C63_last_writer", "Pfp.Props.C63_lost_update"], "note": ""},
  {"property": "C64", "status": "proved", "theorems": ["Pfp.Props.C64_show", "Pfp.Props.C64_remove", "Pfp.Props.C64_alias_set", "Pfp.Props.C64_alias_remove", "Pfp.Props.C64_alias_show", "Pfp.Props.C64_notes", "Pfp.Props.C64_notes_set", "Pfp.Props.C64_add", "Pfp.Props.C64_add_stored", "Pfp.Props.C64_add_stored_end", "Pfp.Props.C64_set_primary", "Pfp.Props.C64_set_primary_question"], "note": ""},
  {"property": "C65", "status": "proved", "theorems": ["Pfp.Props.C65_stored", "Pfp.Props.C65_generated", "Pfp.Props.C65_readable"], "note": ""},
  {"property": "C66", "status": "proved", "theorems": ["Pfp.Props.C66_utf8", "Pfp.Props.C66_base64", "Pfp.Props.C66_file", "Pfp.Props.C66_plain", "Pfp.Props.C66_contents"], "note": ""},
  {"property": "C67", "status": "proved", "theorems": ["Pfp.Props.C67_code", "Pfp.Props.C67_unique", "Pfp.Props.C67_iff"], "note": ""},
  {"property": "C68", "status": "proved", "theorems": ["Pfp.Props.C68_made", "Pfp.Props.C68_value", "Pfp.Props.C68_listed"], "note": ""},
  {"property": "C69", "status": "proved", "theorems": ["Pfp.Props.C69_library", "Pfp.Props.C69_command", "Pfp.Props.C69_calm", "Pfp.Props.C69_shell", "Pfp.Props.C69_own", "Pfp.Props.C69_derivable", "Pfp.Props.C69_commands", "Pfp.Props.C69_sessions", "Pfp.Props.C69_main", "Pfp.Props.C69_any_file", "Pfp.Props.C69_any_session", "Pfp.Props.C69_nonce_crash", "Pfp.Props.C69_parameters_crash"], "note": ""},
  {"property": "C70", "status": "proved", "theorems": ["Pfp.Props.C70_grammar", "Pfp.Props.C70_unambiguous", "Pfp.Props.C70_sensible", "Pfp.Props.C70_typed", "Pfp.Props.C70_order"], "note": ""},
  {"property": "C71", "status": "proved", "theorems": ["Pfp.Props.C71_words", "Pfp.Props.C71_mismatch", "Pfp.Props.C71_unambiguous", "Pfp.Props.C71_quoted"], "note": ""},
  {"property": "C72", "status": "proved", "theorems": ["Pfp.Props.C72_line", "Pfp.Props.C72_nothing", "Pfp.Props.C72_unambiguous", "Pfp.Props.C72_typed", "Pfp.Props.C72_length", "Pfp.Props.C72_refused"], "note": ""},
  {"property": "C73", "status": "proved", "theorems": ["Pfp.Props.C73_messages", "Pfp.Props.C73_no_message", "Pfp.Props.C73_usage", "Pfp.Props.C73_usage_harmless", "Pfp.Props.C73_other_files", "Pfp.Props.C73_other_files_ignored", "Pfp.Props.C73_status"], "note": ""},
  {"property": "C74", "status": "proved", "theorems": ["Pfp.Props.C74_generated", "Pfp.Props.C74_stored"], "note": ""},
  {"property": "C75", "status": "proved", "theorems": ["Pfp.Props.C75_grammar", "Pfp.Props.C75_unambiguous", "Pfp.Props.C75_file", "Pfp.Props.C75_file_contents", "Pfp.Props.C75_site", "Pfp.Props.C75_password"], "note": ""},
  {"property": "C76", "status": "proved", "theorems": ["Pfp.Props.C76_abstract_map", "Pfp.Props.C76_opened", "Pfp.Props.C76_format_kept", "Pfp.Props.C76_written"], "note": ""},
  {"property": "C77", "status": "proved", "theorems": ["Pfp.Props.C77_lawful", "Pfp.Props.C77_environment", "Pfp.Props.C77_exact", "Pfp.Props.C77_key_stream", "Pfp.Props.C77_sbox", "Pfp.Props.C77_padding", "Pfp.Props.C77_hmac"], "note": ""},
  {"property": "C78", "status": "proved", "theorems": ["Pfp.Props.C78_one_byte", "Pfp.Props.C78_one_block", "Pfp.Props.C78_record", "Pfp.Props.C78_unlock"], "note": ""},
  {"property": "C79", "status": "proved", "theorems": ["Pfp.Props.C79_pattern", "Pfp.Props.C79_star", "Pfp.Props.C79_plain", "Pfp.Props.C79_pieces", "Pfp.Props.C79_list"], "note": ""},
  {"property": "C80", "status": "proved", "theorems": ["Pfp.Props.C80_appended", "Pfp.Props.C80_unlocking", "Pfp.Props.C80_commands", "Pfp.Props.C80_reason", "Pfp.Props.C80_wait", "Pfp.Props.C80_lines", "Pfp.Props.C80_history", "Pfp.Props.C80_history_kept", "Pfp.Props.C80_history_secrets", "Pfp.Props.C80_storage_as_history"], "note": ""},
  {"property": "C81", "status": "proved", "theorems": ["Pfp.Props.C81_answers", "Pfp.Props.C81_command", "Pfp.Props.C81_shell", "Pfp.Props.C81_program", "Pfp.Props.C81_written", "Pfp.Props.C81_entered", "Pfp.Props.C81_entered_locked"], "note": ""},
  {"property": "C82", "status": "proved", "theorems": ["Pfp.Props.C82_file", "Pfp.Props.C82_length", "Pfp.Props.C82_effort", "Pfp.Props.C82_outcome", "Pfp.Props.C82_value"], "note": ""},
  {"property": "C83", "status": "proved", "theorems": ["Pfp.Props.C83_each_process", "Pfp.Props.C83_file", "Pfp.Props.C83_between", "Pfp.Props.C83_two", "Pfp.Props.C83_again", "Pfp.Props.C83_undisturbed"], "note": ""},
  {"property": "C84", "status": "proved", "theorems": ["Pfp.Props.C84_lines", "Pfp.Props.C84_prompt", "Pfp.Props.C84_only", "Pfp.Props.C84_unwritten", "Pfp.Props.C84_run", "Pfp.Props.C84_shell", "Pfp.Props.C84_crash"], "note": ""},
  {"property": "C85", "status": "proved", "theorems": ["Pfp.Props.C85_once", "Pfp.Props.C85_command", "Pfp.Props.C85_shell", "Pfp.Props.C85_run", "Pfp.Props.C85_found"], "note": ""},
  {"property": "C86", "status": "proved", "theorems": ["Pfp.Props.C86_unambiguous", "Pfp.Props.C86_detail", "Pfp.Props.C86_empty", "Pfp.Props.C86_set_primary", "Pfp.Props.C86_wrong_password", "Pfp.Props.C86_texts", "Pfp.Props.C86_other_texts"], "note": ""},
  {"property": "C87", "status": "proved", "theorems": ["Pfp.Props.C87_count", "Pfp.Props.C87_all", "Pfp.Props.C87_share", "Pfp.Props.C87_unlikely", "Pfp.Props.C87_default", "Pfp.Props.C87_possible"], "note": ""},
  {"property": "C88", "status": "proved", "theorems": ["Pfp.Props.C88_generate", "Pfp.Props.C88_decode", "Pfp.Props.C88_library", "Pfp.Props.C88_command", "Pfp.Props.C88_shell", "Pfp.Props.C88_main", "Pfp.Props.C88_same", "Pfp.Props.C88_crash"], "note": ""},
  {"property": "C89", "status": "proved", "theorems": ["Pfp.Props.C89_file", "Pfp.Props.C89_contract", "Pfp.Props.C89_histories", "Pfp.Props.C89_memory", "Pfp.Props.C89_tests"], "note": ""},
  {"property": "C90", "status": "proved", "theorems": ["Pfp.Props.C90_genuine", "Pfp.Props.C90_unbound", "Pfp.Props.C90_exchange", "Pfp.Props.C90_removal", "Pfp.Props.C90_old_file"], "note": ""},
  {"property": "C91", "status": "proved", "theorems": ["Pfp.Props.C91_code_decrypts", "Pfp.Props.C91_planted", "Pfp.Props.C91_genuine", "Pfp.Props.C91_entry_as_code"], "note": ""},
  {"property": "C92", "status": "proved", "theorems": ["Pfp.Props.C92_wait", "Pfp.Props.C92_status", "Pfp.Props.C92_usage"], "note": ""},
  {"property": "C93", "status": "proved", "theorems": ["Pfp.Props.C93_terminal", "Pfp.Props.C93_asked", "Pfp.Props.C93_failure", "Pfp.Props.C93_shell", "Pfp.Props.C93_history"], "note": ""},
  {"property": "C94", "status": "proved", "theorems": ["Pfp.Props.C94_derived", "Pfp.Props.C94_base32", "Pfp.Props.C94_recovery_code", "Pfp.Props.C94_capacity", "Pfp.Props.C94_line", "Pfp.Props.C94_long_line", "Pfp.Props.C94_json", "Pfp.Props.C94_hmac_secret", "Pfp.Props.C94_stored"], "note": ""},
  {"property": "C95", "status": "proved", "theorems": ["Pfp.Props.C95_padding", "Pfp.Props.C95_read", "Pfp.Props.C95_read_text", "Pfp.Props.C95_different", "Pfp.Props.C95_patterns", "Pfp.Props.C95_exists", "Pfp.Props.C95_smallest", "Pfp.Props.C95_capacity", "Pfp.Props.C95_show", "Pfp.Props.C95_displaced", "Pfp.Props.C95_mask"], "note": ""},
  {"property": "C96", "status": "proved", "theorems": ["Pfp.Props.C96_right", "Pfp.Props.C96_damaged", "Pfp.Props.C96_three"], "note": ""},
  {"property": "C97", "status": "proved", "theorems": ["Pfp.Props.C97_bytes", "Pfp.Props.C97_alone", "Pfp.Props.C97_read_alone", "Pfp.Props.C97_whole", "Pfp.Props.C97_same", "Pfp.Props.C97_hole", "Pfp.Props.C97_loaded", "Pfp.Props.C97_mixture", "Pfp.Props.C97_neither"], "note": ""},
  {"property": "C98", "status": "proved", "theorems": ["Pfp.Props.C98_order", "Pfp.Props.C98_prompt", "Pfp.Props.C98_end", "Pfp.Props.C98_buffer"], "note": ""},
  {"property": "C99", "status": "proved", "theorems": ["Pfp.Props.C99_command", "Pfp.Props.C99_program", "Pfp.Props.C99_discreet", "Pfp.Props.C99_buffer"], "note": ""},
  {"property": "C100", "status": "proved", "theorems": ["Pfp.Props.C100_kept", "Pfp.Props.C100_grown", "Pfp.Props.C100_fresh", "Pfp.Props.C100_log", "Pfp.Props.C100_shutdown", "Pfp.Props.C100_system"], "note": ""},
  {"property": "C101", "status": "proved", "theorems": ["Pfp.Props.C101_story", "Pfp.Props.C101_announced", "Pfp.Props.C101_locked", "Pfp.Props.C101_lock", "Pfp.Props.C101_changes", "Pfp.Props.C101_early"], "note": ""},
  {"property": "C102", "status": "proved", "theorems": ["Pfp.Props.C102_few", "Pfp.Props.C102_attempts", "Pfp.Props.C102_record", "Pfp.Props.C102_unlock", "Pfp.Props.C102_two_keys"], "note": ""},
  {"property": "C103", "status": "proved", "theorems": ["Pfp.Props.C103_lines", "Pfp.Props.C103_terminal", "Pfp.Props.C103_file", "Pfp.Props.C103_commands", "Pfp.Props.C103_shell", "Pfp.Props.C103_set_primary", "Pfp.Props.C103_add_stored"], "note": ""},
  {"property": "C104", "status": "proved", "theorems": ["Pfp.Props.C104_waits", "Pfp.Props.C104_forward", "Pfp.Props.C104_runs", "Pfp.Props.C104_stored", "Pfp.Props.C104_generated"], "note": ""},
  {"property": "C105", "status": "proved", "theorems": ["Pfp.Props.C105_written", "Pfp.Props.C105_shown", "Pfp.Props.C105_show", "Pfp.Props.C105_exchange"], "note": ""},
  {"property": "C106", "status": "proved", "theorems": ["Pfp.Props.C106_genuine", "Pfp.Props.C106_secrets", "Pfp.Props.C106_saved", "Pfp.Props.C106_notes", "Pfp.Props.C106_lost"], "note": ""},
  {"property": "C107", "status": "proved", "theorems": ["Pfp.Props.C107_evening", "Pfp.Props.C107_evenings"], "note": ""},
  {"property": "C108", "status": "proved", "theorems": ["Pfp.Props.C108_follows", "Pfp.Props.C108_lawful", "Pfp.Props.C108_operation", "Pfp.Props.C108_operations", "Pfp.Props.C108_decode", "Pfp.Props.C108_program", "Pfp.Props.C108_texts", "Pfp.Props.C108_same"], "note": ""},
  {"property": "C109", "status": "proved", "theorems": ["Pfp.Props.C109_others", "Pfp.Props.C109_reachable", "Pfp.Props.C109_history", "Pfp.Props.C109_gone", "Pfp.Props.C109_file", "Pfp.Props.C109_site", "Pfp.Props.C109_alias"], "note": ""},
  {"property": "C110", "status": "proved", "theorems": ["Pfp.Props.C110_order", "Pfp.Props.C110_exchange", "Pfp.Props.C110_replaced", "Pfp.Props.C110_again", "Pfp.Props.C110_file"], "note": ""},
  {"property": "C111", "status": "proved", "theorems": ["Pfp.Props.C111_run", "Pfp.Props.C111_reachable"], "note": ""},
  {"property": "C112", "status": "proved", "theorems": ["Pfp.Props.C112_result", "Pfp.Props.C112_alias", "Pfp.Props.C112_lists", "Pfp.Props.C112_run"], "note": ""},
  {"property": "C113", "status": "proved", "theorems": ["Pfp.Props.C113_run", "Pfp.Props.C113_others"], "note": ""},
  {"property": "C114", "status": "proved", "theorems": ["Pfp.Props.C114_question", "Pfp.Props.C114_stored", "Pfp.Props.C114_generated"], "note": ""}
]}
