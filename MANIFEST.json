{
 "claims": [
  {
   "property": "C01",
   "status": "proved",
   "theorems": [
    "VF.C01_reassembly",
    "VF.C01_host_packets"
   ],
   "note": ""
  },
  {
   "property": "C02",
   "status": "proved",
   "theorems": [
    "VF.C02_response_framing"
   ],
   "note": ""
  },
  {
   "property": "C03",
   "status": "proved",
   "theorems": [
    "VF.C03_no_splice"
   ],
   "note": ""
  },
  {
   "property": "C04",
   "status": "proved",
   "theorems": [
    "VF.C04_any_order",
    "VF.C04_reorder_refuted"
   ],
   "note": "Delivery at most once and intact proved for every order; the wish that it is always delivered is refuted by a swapped pair."
  },
  {
   "property": "C05",
   "status": "proved",
   "theorems": [
    "VF.C05_no_interference"
   ],
   "note": ""
  },
  {
   "property": "C06",
   "status": "proved",
   "theorems": [
    "VF.C06_unknown_channel"
   ],
   "note": ""
  },
  {
   "property": "C07",
   "status": "proved",
   "theorems": [
    "VF.C07_fresh_ids",
    "VF.C07_wrap_refuted"
   ],
   "note": "Proved for fewer than 2^32-1 successful INITs; C07_wrap_refuted shows the bound is needed."
  },
  {
   "property": "C08",
   "status": "proved",
   "theorems": [
    "VF.C08_init"
   ],
   "note": ""
  },
  {
   "property": "C09",
   "status": "proved",
   "theorems": [
    "VF.C09_ping",
    "VF.C09_empty_ping_refuted"
   ],
   "note": "Proved for 1..7609 bytes; the empty PING is refuted."
  },
  {
   "property": "C10",
   "status": "proved",
   "theorems": [
    "VF.C10_cancel"
   ],
   "note": ""
  },
  {
   "property": "C11",
   "status": "proved",
   "theorems": [
    "VF.C11_not_wedged"
   ],
   "note": ""
  },
  {
   "property": "C12",
   "status": "proved",
   "theorems": [
    "VF.C12_oversized"
   ],
   "note": ""
  },
  {
   "property": "C13",
   "status": "proved",
   "theorems": [
    "VF.C13_answers"
   ],
   "note": ""
  },
  {
   "property": "C14",
   "status": "proved",
   "theorems": [
    "VF.C14_panic_iff",
    "VF.C14_crash_refuted"
   ],
   "note": "Exact crash condition (iff); the wish that no host report crashes the device is refuted."
  },
  {
   "property": "C15",
   "status": "proved",
   "theorems": [
    "VF.C15_in_order"
   ],
   "note": ""
  },
  {
   "property": "C16",
   "status": "proved",
   "theorems": [
    "VF.C16_exactly_once",
    "VF.C16_reuse_refuted"
   ],
   "note": "Proved while no sequence number is reused by a request still waiting; C16_reuse_refuted shows the proviso is needed."
  },
  {
   "property": "C17",
   "status": "proved",
   "theorems": [
    "VF.C17_unlink"
   ],
   "note": ""
  },
  {
   "property": "C18",
   "status": "proved",
   "theorems": [
    "VF.C18_order_serial",
    "VF.C18_overlap_refuted"
   ],
   "note": "Order proved when respond calls do not overlap; C18_overlap_refuted gives a schedule of two overlapping responders that reorders."
  },
  {
   "property": "C19",
   "status": "proved",
   "theorems": [
    "VF.C19_not_interleaved"
   ],
   "note": ""
  },
  {
   "property": "C20",
   "status": "proved",
   "theorems": [
    "VF.C20_ret_submit",
    "VF.C20_ret_submit_sent"
   ],
   "note": ""
  },
  {
   "property": "C21",
   "status": "proved",
   "theorems": [
    "VF.C21_decoded_exactly",
    "VF.C21_split_refuted"
   ],
   "note": "Proved when each socket read returns the bytes asked for; C21_split_refuted shows a transfer buffer delivered in pieces breaks it."
  },
  {
   "property": "C22",
   "status": "partial",
   "theorems": [
    "VF.C22_devlist_refuted"
   ],
   "note": "False of the code for every device list: C22_devlist_refuted proves nothing is sent."
  },
  {
   "property": "C23",
   "status": "proved",
   "theorems": [
    "VF.C23_import",
    "VF.C23_import_length"
   ],
   "note": ""
  },
  {
   "property": "C24",
   "status": "partial",
   "theorems": [
    "VF.C24_next_client_refuted",
    "VF.C24_without_import_partial"
   ],
   "note": "False of the code: C24_next_client_refuted proves the server never accepts again after an import. C24_without_import_partial proves it for clients that never import."
  },
  {
   "property": "C25",
   "status": "proved",
   "theorems": [
    "VF.C25_loopback_only"
   ],
   "note": ""
  },
  {
   "property": "C26",
   "status": "proved",
   "theorems": [
    "VF.C26_failures_isolated"
   ],
   "note": ""
  },
  {
   "property": "C27",
   "status": "proved",
   "theorems": [
    "VF.C27_descriptors_consistent",
    "VF.C27_answered_iff"
   ],
   "note": ""
  },
  {
   "property": "C28",
   "status": "proved",
   "theorems": [
    "VF.C28_setters",
    "VF.C28_fields",
    "VF.C28_class_refuted"
   ],
   "note": "Setters and getters proved; C28_class_refuted proves the disagreement with the USB specification and exactly when it occurs."
  },
  {
   "property": "C29",
   "status": "proved",
   "theorems": [
    "VF.Props.C29_ecdsa_private_round_trip",
    "VF.Props.C29_ed25519_private_round_trip",
    "VF.Props.C29_rsa_private_round_trip",
    "VF.Props.C29_private_round_trip"
   ],
   "note": ""
  },
  {
   "property": "C30",
   "status": "proved",
   "theorems": [
    "VF.Props.C30_ecdsa_public_round_trip",
    "VF.Props.C30_ed25519_public_round_trip",
    "VF.Props.C30_rsa_public_refuted"
   ],
   "note": ""
  },
  {
   "property": "C31",
   "status": "proved",
   "theorems": [
    "VF.Props.C31_coordinate_lengths",
    "VF.Props.C31_ed25519_form",
    "VF.Props.C31_rsa_form",
    "VF.Props.C31_32_bytes_refuted"
   ],
   "note": ""
  },
  {
   "property": "C32",
   "status": "proved",
   "theorems": [
    "VF.Props.C32_private_equal_iff",
    "VF.Props.C32_private_equal_refl",
    "VF.Props.C32_private_equal_symm",
    "VF.Props.C32_private_equal_trans",
    "VF.Props.C32_public_equal_iff",
    "VF.Props.C32_public_equal_symm",
    "VF.Props.C32_public_equal_trans",
    "VF.Props.C32_public_equal_refl_refuted"
   ],
   "note": ""
  },
  {
   "property": "C33",
   "status": "proved",
   "theorems": [
    "VF.Props.C33_sign_verifies",
    "VF.Props.C33_verify_accepts_genuine",
    "VF.Props.C33_certificate_has_signing_key",
    "VF.Props.C33_certificate_signed",
    "VF.Props.C33_marshalled_key_is_signing_key",
    "VF.Props.C33_no_key_panics"
   ],
   "note": ""
  },
  {
   "property": "C34",
   "status": "proved",
   "theorems": [
    "VF.Props.C34_canonical_form_unique",
    "VF.Props.C34_answers_are_canonical",
    "VF.Props.C34_retries_content"
   ],
   "note": ""
  },
  {
   "property": "C35",
   "status": "proved",
   "theorems": [
    "VF.Props.C35_device_missing",
    "VF.Props.C35_device_deletes",
    "VF.Props.C35_delete_result",
    "VF.Props.C35_delete_removes_exactly_one",
    "VF.Props.C35_delete_missing",
    "VF.Props.C35_delete_distinct"
   ],
   "note": "C35_device_missing and C35_device_deletes are about the API call on a running device after any history, including what a restart finds; the other theorems are about the vault alone."
  },
  {
   "property": "C36",
   "status": "proved",
   "theorems": [
    "VF.Props.C36_lookup_exact",
    "VF.Props.C36_lookup_needs_relying_parties"
   ],
   "note": "C36_lookup_needs_relying_parties adds that a stored credential without relying party makes every lookup panic."
  },
  {
   "property": "C37",
   "status": "proved",
   "theorems": [
    "VF.Props.C37_import_export"
   ],
   "note": ""
  },
  {
   "property": "C38",
   "status": "partial",
   "theorems": [
    "VF.Props.C38_entities_restored_iff",
    "VF.Props.C38_entities_restored_refuted"
   ],
   "note": "False of the code: C38_entities_restored_refuted is a witness, C38_entities_restored_iff says exactly when it holds (all credentials share the last one's relying party and user)."
  },
  {
   "property": "C39",
   "status": "proved",
   "theorems": [
    "VF.Props.C39_saved_state_round_trip"
   ],
   "note": ""
  },
  {
   "property": "C40",
   "status": "proved",
   "theorems": [
    "VF.Props.C40_saved_reflects_memory",
    "VF.Props.C40_restart_succeeds"
   ],
   "note": "Proved for every history on a device whose key agreement with the configuration is usable; restarts reload exactly the saved data (up to the relying party and user mix-up of C38)."
  },
  {
   "property": "C41",
   "status": "proved",
   "theorems": [
    "VF.Props.C41_saved_data_before_or_after",
    "VF.Props.C41_answered_is_saved",
    "VF.Props.C41_crash"
   ],
   "note": ""
  },
  {
   "property": "C42",
   "status": "partial",
   "theorems": [
    "VF.Props.C42_interrupted_save_is_fatal",
    "VF.Props.C42_complete_or_not_begun",
    "VF.Props.C42_file_read",
    "VF.Props.C42_crash_refuted"
   ],
   "note": "False of the code: C42_crash_refuted is a witness; C42_interrupted_save_is_fatal proves that every interruption between truncation and the last byte loses the vault. C42_complete_or_not_begun covers the other crash points."
  },
  {
   "property": "C43",
   "status": "proved",
   "theorems": [
    "VF.Props.C43_creation_needs_approval",
    "VF.Props.C43_no_approval_no_credential",
    "VF.Props.C43_refusal_is_denied"
   ],
   "note": ""
  },
  {
   "property": "C44",
   "status": "proved",
   "theorems": [
    "VF.Props.C44_creation_needs_pin",
    "VF.Props.C44_creation_without_pin"
   ],
   "note": ""
  },
  {
   "property": "C45",
   "status": "proved",
   "theorems": [
    "VF.Props.C45_assertion_authenticator_data",
    "VF.Props.C45_creation_authenticator_data"
   ],
   "note": ""
  },
  {
   "property": "C46",
   "status": "proved",
   "theorems": [
    "VF.Props.C46_created_credential_is_stored_and_attested",
    "VF.Props.C46_attestation_certificate"
   ],
   "note": ""
  },
  {
   "property": "C47",
   "status": "proved",
   "theorems": [
    "VF.Props.C47_assertion_uses_matching_credential",
    "VF.Props.C47_first_match"
   ],
   "note": ""
  },
  {
   "property": "C48",
   "status": "proved",
   "theorems": [
    "VF.Props.C48_assertion_needs_user",
    "VF.Props.C48_refusal_is_denied"
   ],
   "note": ""
  },
  {
   "property": "C49",
   "status": "proved",
   "theorems": [
    "VF.Props.C49_no_credentials_iff",
    "VF.Props.C49_no_credentials_no_effect",
    "VF.Props.C49_pin_failure"
   ],
   "note": ""
  },
  {
   "property": "C50",
   "status": "proved",
   "theorems": [
    "VF.Props.C50_counters_increase"
   ],
   "note": "Proved for every history with restarts, given distinct random draws for credential ids."
  },
  {
   "property": "C51",
   "status": "partial",
   "theorems": [
    "VF.Props.C51_refused_login_increments_counter",
    "VF.Props.C51_refused_login_leaves_no_trace_refuted"
   ],
   "note": "False of the code: C51_refused_login_leaves_no_trace_refuted. C51_refused_login_increments_counter says exactly what a refused login changes."
  },
  {
   "property": "C52",
   "status": "partial",
   "theorems": [
    "VF.Props.C52_exclude_list_ignored",
    "VF.Props.C52_exclude_list_honoured_refuted"
   ],
   "note": "False of the code: C52_exclude_list_honoured_refuted. C52_exclude_list_ignored proves the list has no influence at all."
  },
  {
   "property": "C53",
   "status": "proved",
   "theorems": [
    "VF.Props.C53_setPIN_only_without_pin"
   ],
   "note": ""
  },
  {
   "property": "C54",
   "status": "proved",
   "theorems": [
    "VF.Props.C54_pin_replaced_only_with_pin"
   ],
   "note": ""
  },
  {
   "property": "C55",
   "status": "proved",
   "theorems": [
    "VF.Props.C55_token_needs_pin",
    "VF.Props.C55_other_answers",
    "VF.Props.C55_no_pin_no_token_refuted"
   ],
   "note": "First half proved; second half refuted by C55_no_pin_no_token_refuted. C55_other_answers proves no other subcommand returns the token."
  },
  {
   "property": "C56",
   "status": "proved",
   "theorems": [
    "VF.Props.C56_at_most_eight",
    "VF.Props.C56_then_blocked"
   ],
   "note": ""
  },
  {
   "property": "C57",
   "status": "partial",
   "theorems": [
    "VF.Props.C57_never_answered_blocked",
    "VF.Props.C57_locked_out_panics"
   ],
   "note": "False of the code: PIN_BLOCKED is never answered (C57_never_answered_blocked) and with no retries left every attempt panics without effect (C57_locked_out_panics)."
  },
  {
   "property": "C58",
   "status": "partial",
   "theorems": [
    "VF.Props.C58_restart_resets_retries",
    "VF.Props.C58_lockout_survives_restart_refuted",
    "VF.Props.C58_pin_found",
    "VF.Props.C58_case_found"
   ],
   "note": "False of the code: C58_restart_resets_retries proves every start gives 8 retries; C58_lockout_survives_restart_refuted is a witness. C58_pin_found proves what follows from it: who can start the program anew has every guess evaluated, however many; C58_case_found meets its hypotheses with thirty wrong guesses."
  },
  {
   "property": "C59",
   "status": "proved",
   "theorems": [
    "VF.Props.C59_key_agreement",
    "VF.Props.C59_set_pin",
    "VF.Props.C59_get_token",
    "VF.Props.C59_change_pin",
    "VF.Props.C59_platform_flow",
    "VF.Props.C59_without_proviso_refuted"
   ],
   "note": "Proved for agreements whose shared x coordinate has no leading zero byte (the code strips them); C59_without_proviso_refuted shows the proviso is needed."
  },
  {
   "property": "C60",
   "status": "proved",
   "theorems": [
    "VF.Props.C60_getInfo_tells_pin_state"
   ],
   "note": ""
  },
  {
   "property": "C61",
   "status": "proved",
   "theorems": [
    "VF.Props.C61_effects"
   ],
   "note": ""
  },
  {
   "property": "C62",
   "status": "proved",
   "theorems": [
    "VF.Props.C62_registration",
    "VF.Props.C62_registration_succeeds",
    "VF.Props.C62_wrong_size_panics"
   ],
   "note": ""
  },
  {
   "property": "C63",
   "status": "proved",
   "theorems": [
    "VF.Props.C63_sealing_key",
    "VF.Props.C63_forever",
    "VF.Props.C63_own_application",
    "VF.Props.C63_other_application",
    "VF.Props.C63_check_only",
    "VF.Props.C63_after_restart"
   ],
   "note": "C63_forever: over every history, with restarts and crashes, at every later point at which the device runs. C63_own_application, C63_other_application and C63_check_only are the single-request theorems for any later state with the same sealing key; C63_sealing_key shows that it never changes."
  },
  {
   "property": "C64",
   "status": "proved",
   "theorems": [
    "VF.Props.C64_signs_only_for_own_handles",
    "VF.Props.C64_well_formed"
   ],
   "note": ""
  },
  {
   "property": "C65",
   "status": "partial",
   "theorems": [
    "VF.Props.C65_undecodable_partial",
    "VF.Props.C65_foreign_box_panics",
    "VF.Props.C65_wrong_data_refuted"
   ],
   "note": "False of the code: C65_foreign_box_panics proves every encoded box that does not open crashes the device, C65_wrong_data_refuted is a witness (a handle of another device). C65_undecodable_partial proves WRONG_DATA for handles that are not encoded boxes; C63_other_application for own handles of other applications."
  },
  {
   "property": "C66",
   "status": "proved",
   "theorems": [
    "VF.Props.C66_presence",
    "VF.Props.C66_check_only",
    "VF.Props.C66_refusal",
    "VF.Props.C66_presence_byte_refuted"
   ],
   "note": "First two parts proved for every request; the last part refuted for control byte 0x08 (C66_presence_byte_refuted) and proved for all others (C66_presence)."
  },
  {
   "property": "C67",
   "status": "proved",
   "theorems": [
    "VF.Props.C67_counters_increase",
    "VF.Props.C67_across_restarts_refuted"
   ],
   "note": "Proved within one process; C67_across_restarts_refuted shows the counter starting again after a restart."
  },
  {
   "property": "C68",
   "status": "proved",
   "theorems": [
    "VF.Props.C68_framing",
    "VF.Props.C68_framing_without_data",
    "VF.Props.C68_framing_injective",
    "VF.Props.C68_version"
   ],
   "note": ""
  },
  {
   "property": "C69",
   "status": "proved",
   "theorems": [
    "VF.Props.C69_exactly_the_enabled_lines",
    "VF.Props.C69_current_output",
    "VF.Props.C69_no_panic"
   ],
   "note": "A writer that is nil or fails is not modelled; the logger ignores write errors."
  },
  {
   "property": "C70",
   "status": "partial",
   "theorems": [
    "VF.Props.C70_what_it_does",
    "VF.Props.C70_right_identity_iff",
    "VF.Props.C70_named_identity_refuted"
   ],
   "note": "False of the code: C70_named_identity_refuted. C70_what_it_does says what happens in every case, C70_right_identity_iff when the named identity is the one deleted (only if it is the last)."
  },
  {
   "property": "C71",
   "status": "proved",
   "theorems": [
    "VF.Props.C71_yes_iff",
    "VF.Props.C71_question_names",
    "VF.Props.C71_approved_only_on_yes",
    "VF.Props.C71_u2f_questions_refuted"
   ],
   "note": "First half proved as an equivalence; questions for FIDO2 actions proved to name the action, relying party and user; C71_u2f_questions_refuted proves the U2F questions are swapped. unicode.ToLower is a parameter with LowerOk assumed."
  },
  {
   "property": "C72",
   "status": "proved",
   "theorems": [
    "VF.C72_no_leak",
    "VF.C72_stops",
    "VF.C72_late_keepalive_refuted"
   ],
   "note": "Boundedness, no leaks and termination proved; a keepalive after the final response is exhibited by C72_late_keepalive_refuted."
  },
  {
   "property": "C73",
   "status": "partial",
   "theorems": [
    "VF.C73_race_refuted",
    "VF.C73_lost_update_refuted",
    "VF.C73_serial_partial",
    "VF.Props.C73_exclusive_partial",
    "VF.Props.C73_exclusive_increasing_partial"
   ],
   "note": "False of the code: C73_race_refuted and C73_lost_update_refuted exhibit equal counters. C73_serial_partial proves distinctness when authentications do not overlap; C73_exclusive_partial and C73_exclusive_increasing_partial prove it of the whole device when authentications do not overlap with each other, whatever other requests and calls overlap with them."
  },
  {
   "property": "C74",
   "status": "proved",
   "theorems": [
    "VF.C74_reports_delivered"
   ],
   "note": ""
  },
  {
   "property": "C75",
   "status": "proved",
   "theorems": [
    "VF.C75_control_requests"
   ],
   "note": ""
  },
  {
   "property": "C76",
   "status": "proved",
   "theorems": [
    "VF.Props.C76_valid_creation_succeeds"
   ],
   "note": ""
  },
  {
   "property": "C77",
   "status": "proved",
   "theorems": [
    "VF.Props.C77_valid_assertion_succeeds"
   ],
   "note": ""
  },
  {
   "property": "C78",
   "status": "partial",
   "theorems": [
    "VF.Props.C78_only_last_relying_party",
    "VF.Props.C78_last_relying_party_gets_all",
    "VF.Props.C78_kept_iff",
    "VF.Props.C78_refuted"
   ],
   "note": "False of the code: C78_refuted is a witness history. C78_only_last_relying_party and C78_last_relying_party_gets_all say exactly what happens after every restart; C78_kept_iff says when relying parties survive (all credentials share one relying party and user)."
  },
  {
   "property": "C79",
   "status": "partial",
   "theorems": [
    "VF.Props.C79_question_determines",
    "VF.Props.C79_creation_question_determines",
    "VF.Props.C79_quotes_refuted"
   ],
   "note": "False of the code: C79_quotes_refuted. C79_question_determines proves it for relying party names without quotes."
  },
  {
   "property": "C80",
   "status": "proved",
   "theorems": [
    "VF.Props.C80_one_line_per_read",
    "VF.Props.C80_lost_line_refuted"
   ],
   "note": "Proved with the proviso; C80_lost_line_refuted shows it is needed."
  },
  {
   "property": "C81",
   "status": "proved",
   "theorems": [
    "VF.Props.C81_typed_pin_works",
    "VF.Props.C81_no_leading_zero",
    "VF.Props.C81_leading_zero_refuted"
   ],
   "note": "Proved for PINs of 4 to 18 digits without leading zero; C81_leading_zero_refuted and C81_no_leading_zero settle the rest."
  },
  {
   "property": "C82",
   "status": "proved",
   "theorems": [
    "VF.Props.C82_list_complete"
   ],
   "note": ""
  },
  {
   "property": "C83",
   "status": "proved",
   "theorems": [
    "VF.C83_unlink",
    "VF.C83_one_outcome"
   ],
   "note": "Sessions are those of a conforming client: distinct sequence numbers, interrupt IN polls, OUT reports, control transfers, unlinks."
  },
  {
   "property": "C84",
   "status": "proved",
   "theorems": [
    "VF.C84_reports_in_order",
    "VF.C84_zero_report_refuted"
   ],
   "note": "Proved per channel for every channel but 0; C84_zero_report_refuted is the witness for the zero report."
  },
  {
   "property": "C85",
   "status": "proved",
   "theorems": [
    "VF.C85_request_over_usbip",
    "VF.C85_goroutine_order_refuted"
   ],
   "note": "Proved with the condition; C85_goroutine_order_refuted shows it is needed. The authenticator is a parameter here; C86 puts in the modelled one."
  },
  {
   "property": "C86",
   "status": "proved",
   "theorems": [
    "VF.C86_authenticator_over_usbip"
   ],
   "note": "Goroutines handling reports are atomic steps in any order; finer interleavings inside one report's handling are treated in the concurrency model only (C72, C73)."
  },
  {
   "property": "C87",
   "status": "proved",
   "theorems": [
    "VF.Props.C87_status_table",
    "VF.Props.C87_one_outcome"
   ],
   "note": "The table is Spec.Status; C87_one_outcome adds that it is total and single-valued. Several rows record crashes of the code (undecodable MakeCredential, PIN blocked, unknown command)."
  },
  {
   "property": "C88",
   "status": "proved",
   "theorems": [
    "VF.Props.C88_status_table",
    "VF.Props.C88_one_outcome"
   ],
   "note": "The table is Spec.U2fStatus; C88_one_outcome adds that it is total and single-valued. A handle not sealed by the device ends the process (second row of the authentication table)."
  },
  {
   "property": "C89",
   "status": "proved",
   "theorems": [
    "VF.Props.C89_meaning_of_held",
    "VF.Props.C89_credentials_held"
   ],
   "note": "What should be held is computed from the exchanged messages alone (Spec.Store.held; C89_meaning_of_held says what it means). Equal as multisets: deletion moves the last identity into the gap."
  },
  {
   "property": "C90",
   "status": "proved",
   "theorems": [
    "VF.Props.C90_assertion_provenance"
   ],
   "note": "The public key is read from the bytes of the earlier answer (Spec.Store.announced)."
  },
  {
   "property": "C91",
   "status": "proved",
   "theorems": [
    "VF.Props.C91_ids_distinct"
   ],
   "note": ""
  },
  {
   "property": "C92",
   "status": "proved",
   "theorems": [
    "VF.Props.C92_one_approval_each",
    "VF.Props.C92_no_other_questions",
    "VF.Props.C92_asked_during_the_request"
   ],
   "note": "Consent is read from the answers: the user-present flag of creations and assertions, success of U2F answers (Spec.Approval.claims)."
  },
  {
   "property": "C93",
   "status": "proved",
   "theorems": [
    "VF.Props.C93_sequential",
    "VF.Props.C93_every_history"
   ],
   "note": "The sequential model is Model/Device, about which C39-C46, C76-C92 are proved; the interleaved one is Model/Overlap. Memory is sequentially consistent."
  },
  {
   "property": "C94",
   "status": "proved",
   "theorems": [
    "VF.Props.C94_own_approval",
    "VF.Props.C94_one_approval_each",
    "VF.Props.C94_no_other_questions"
   ],
   "note": "Proved by rely-guarantee reasoning over Model/Overlap, one atomic step for each access to shared memory; the question and its answer are one step."
  },
  {
   "property": "C95",
   "status": "proved",
   "theorems": [
    "VF.Props.C95_own_answer"
   ],
   "note": "What the answer says is spelled out in Spec.Overlap (Created, Asserted, RegisteredFor, AuthenticatedFor, Faithful), at the memory of the moment the result was there."
  },
  {
   "property": "C96",
   "status": "proved",
   "theorems": [
    "VF.Props.C96_killed_at_any_moment"
   ],
   "note": "Writing the store is one step here (interrupted writes: C42)."
  },
  {
   "property": "C97",
   "status": "proved",
   "theorems": [
    "VF.Props.C97_pin_guards_creation"
   ],
   "note": "Assertions need no hypothesis on the PIN: their user-verified flag is covered by C95."
  },
  {
   "property": "C98",
   "status": "proved",
   "theorems": [
    "VF.Props.C98_granted",
    "VF.Props.C98_pin_changes"
   ],
   "note": "Spec.Overlap.Entitled says what entitles a request, Vouched that it was entitled at one of its own steps. The hash shown is that of the PIN at this step; another request may change the PIN before this one writes."
  },
  {
   "property": "C99",
   "status": "partial",
   "theorems": [
    "VF.Props.C99_in_a_row_partial",
    "VF.Props.C99_at_most_eight_partial",
    "VF.Props.C99_guesses_at_once",
    "VF.Props.C99_limit_refuted"
   ],
   "note": "False of the code: C99_guesses_at_once proves that whenever the PIN can be tried, any list of wrong PINs can be tried at once for one retry; C99_limit_refuted is the witness against the limit. One after the other the limit holds (C56, C93). C99_in_a_row_partial and C99_at_most_eight_partial: it holds as long as ClientPIN requests do not overlap with each other, whatever other requests and calls overlap with them."
  },
  {
   "property": "C100",
   "status": "partial",
   "theorems": [
    "VF.Props.C100_in_memory_partial",
    "VF.Props.C100_in_store_partial",
    "VF.Props.C100_kept_in_memory_refuted",
    "VF.Props.C100_kept_in_store_refuted"
   ],
   "note": "False of the code: C100_kept_in_memory_refuted (two creations) and C100_kept_in_store_refuted (a creation and switching the PIN off). One after the other credentials are kept (C89, C93). C100_in_memory_partial: kept on the list as long as creations and deletions do not overlap with each other; C100_in_store_partial: kept in the saved data too as long as the operations that save do not overlap with each other; whatever else overlaps with them."
  },
  {
   "property": "C101",
   "status": "partial",
   "theorems": [
    "VF.Props.C101_partial",
    "VF.Props.C101_increasing_partial",
    "VF.Props.C101_counters_differ_refuted"
   ],
   "note": "False of the code: C101_counters_differ_refuted. One after the other counters increase (C50, C93); C101_partial and C101_increasing_partial prove that counters differ and increase when logins do not overlap with each other, whatever other requests and calls overlap with them."
  },
  {
   "property": "C102",
   "status": "proved",
   "theorems": [
    "VF.Props.C102_step",
    "VF.Props.C102_begin",
    "VF.Props.C102_together",
    "VF.Props.C102_readers",
    "VF.Props.C102_reading"
   ],
   "note": "The table is Spec.Overlap.touches, what stays the same is Spec.Overlap.Keeps."
  },
  {
   "property": "C103",
   "status": "proved",
   "theorems": [
    "VF.Live.C103_account",
    "VF.Live.C103_requests_determined",
    "VF.Live.C103_all_heard",
    "VF.Live.C103_each_answered_once",
    "VF.Live.C103_in_order",
    "VF.Live.C103_after_panic"
   ],
   "note": "Spec.Live.Account is the statement: an account of all reports, requests, operations and answers. Which requests are in reports is Spec.Service.Heard, which is functional (C103_requests_determined) and finds all requests of a conforming host (C103_all_heard). Reports of one channel may be handled in another order than they came in, hence a permutation in C103_each_answered_once; C103_in_order needs no permutation where they come in one by one. The theorem needs answers to fit a CTAPHID message (C65) and fewer than 2^32-1 reports."
  },
  {
   "property": "C104",
   "status": "proved",
   "theorems": [
    "VF.Live.C104_no_endless_work",
    "VF.Live.C104_no_deadlock",
    "VF.Live.C104_rest",
    "VF.Live.C104_comes_to_rest",
    "VF.Live.C104_all_answered"
   ],
   "note": "Endless work is excluded for all infinite sequences of steps; C104_no_deadlock is about all states reached, C104_rest its converse."
  },
  {
   "property": "C105",
   "status": "proved",
   "theorems": [
    "VF.Live.C105_consent_behind_answers"
   ],
   "note": "Holds of every account of the state (C103 gives one)."
  },
  {
   "property": "C106",
   "status": "proved",
   "theorems": [
    "VF.Live.C106_no_report_reaches_it",
    "VF.Live.C106_only_its_answer_ends_it"
   ],
   "note": "CTAPHID_CANCEL is therefore without effect on a request at work; the CTAPHID specification wants it to stop the request."
  },
  {
   "property": "C107",
   "status": "proved",
   "theorems": [
    "VF.Mac.C107_reports_in_order",
    "VF.Mac.C107_oldest_lost",
    "VF.Mac.C107_one_at_a_time",
    "VF.Mac.C107_no_endless_work",
    "VF.Mac.C107_at_rest",
    "VF.Mac.C107_rest",
    "VF.Mac.C107_all_answered"
   ],
   "note": "That a report is lost when more than seventeen wait is C107_oldest_lost. Paced is the hypothesis that this does not happen. A report larger than 64 bytes, which newHIDFrame would copy over the end of its frame, is excluded."
  },
  {
   "property": "C108",
   "status": "proved",
   "theorems": [
    "VF.Mac.C108_sequential"
   ],
   "note": "Spec.Overlap.sequential of the memory is the world of Device.after, the sequential model all properties on histories (C38 onwards) are about; the order of requests is that of the reports completing them (calls.map report increasing)."
  },
  {
   "property": "C109",
   "status": "proved",
   "theorems": [
    "VF.Props.C109_announced_differ",
    "VF.Props.C109_ids_distinct"
   ],
   "note": ""
  },
  {
   "property": "C110",
   "status": "proved",
   "theorems": [
    "VF.Props.C110_keys_differ",
    "VF.Props.C110_handles_differ",
    "VF.Props.C110_saved_differ"
   ],
   "note": "Needs the draws of each length that the process has made to differ (Spec.Draws.Distinct, DistinctKeys); that crypto/rand gives such draws is assumed."
  },
  {
   "property": "C111",
   "status": "proved",
   "theorems": [
    "VF.Props.C111_one_writer",
    "VF.Props.C111_race",
    "VF.Props.C111_mac_no_race",
    "VF.Props.C111_mac_one_operation"
   ],
   "note": "C111_one_writer: no two writers. C111_race: the race of a reader with a writer over USB/IP, reachable from every state in which a channel is about to be created (the example shows one). The abort by the Go runtime itself is outside the model."
  },
  {
   "property": "C112",
   "status": "proved",
   "theorems": [
    "VF.Server.C112_reports_in_order",
    "VF.Server.C112_received",
    "VF.Server.C112_account",
    "VF.Server.C112_each_answered_once",
    "VF.Server.C112_in_order",
    "VF.Server.C112_consent",
    "VF.Server.C112_at_rest",
    "VF.Server.C112_rest",
    "VF.Server.C112_no_endless_work"
   ],
   "note": "Extends C83-C85 (where a report is handled in one step) and C103-C105 (where there is no USB/IP) to everything at once. Reports of one channel may be handled in another order than handed over (C85_goroutine_order_refuted), hence the permutation in C112_each_answered_once and the hypothesis OneByOne in C112_in_order. Needs answers that fit a CTAPHID message (C65), fewer than 2^32-1 reports and reads that are not cut short (C21)."
  },
  {
   "property": "C113",
   "status": "proved",
   "theorems": [
    "VF.C113_texts",
    "VF.C113_device",
    "VF.C113_texts_named",
    "VF.C113_endpoints",
    "VF.C113_report_descriptor",
    "VF.C113_report_descriptor_mac",
    "VF.C113_logical_maximum_refuted",
    "VF.C113_configuration_number_refuted",
    "VF.C113_summary",
    "VF.C113_release_refuted"
   ],
   "note": "Spec/Enumerate.lean has readers for device, configuration, string and HID report descriptors written from the USB and HID specifications. The three deviations in parentheses are C113_release_refuted, C113_configuration_number_refuted and C113_logical_maximum_refuted. The properties of newDeviceDescription (USBDevice.cpp:51-125) are not modelled."
  },
  {
   "property": "C114",
   "status": "proved",
   "theorems": [
    "VF.Props.C114_announced",
    "VF.Props.C114_aaguid",
    "VF.Props.C114_protocols",
    "VF.Props.C114_resident_key",
    "VF.Props.C114_u2f_version",
    "VF.Props.C114_commands_refuted"
   ],
   "note": "C114_commands_refuted is the deviation in parentheses."
  },
  {
   "property": "C115",
   "status": "proved",
   "theorems": [
    "VF.Props.C115_wrong_guesses_tell_nothing"
   ],
   "note": "A relational theorem on pairs of runs (Proofs/PinTwin.lean). What presenting a PIN means is Spec.Secrecy.Presents: only requests for a token and to change the PIN do. The saved data is compared by what a restart makes of it, not byte by byte; timing is outside the model."
  },
  {
   "property": "C117",
   "status": "proved",
   "theorems": [
    "VF.Props.C117_token_stays_good",
    "VF.Props.C117_token_lasts",
    "VF.Props.C117_token_ends_with_process",
    "VF.Props.C117_revoked_by_new_pin_refuted"
   ],
   "note": "C117_revoked_by_new_pin_refuted is the deviation in parentheses, on a concrete device."
  },
  {
   "property": "C116",
   "status": "proved",
   "theorems": [
    "VF.Props.C116_others_make_no_difference",
    "VF.Props.C116_savable",
    "VF.Props.C116_after_restart_refuted"
   ],
   "note": "A relational theorem on pairs of runs (Proofs/VaultTwin.lean). Spec.Isolation.DifferInOthers relates the devices (draws and past questions equal), Within restricts the history. C116_after_restart_refuted is the deviation in parentheses, on two devices with a common history up to their last step; it is also the concrete case of the hypotheses."
  },
  {
   "property": "C118",
   "status": "proved",
   "theorems": [
    "VF.Props.C118_not_noticed",
    "VF.Props.C118_undone_by_next_save",
    "VF.Props.C118_next_save_wins",
    "VF.Props.C118_deletion_undone"
   ],
   "note": "Other processes are modelled by what they write (any bytes, Model/Processes.lean); a write is one step (interrupted ones are C42)."
  },
  {
   "property": "C119",
   "status": "proved",
   "theorems": [
    "VF.Props.C119_registration_accepted",
    "VF.Props.C119_login_accepted",
    "VF.Props.C119_all_accepted",
    "VF.Props.C119_registered_can_login",
    "VF.Props.C119_restart_refuted",
    "VF.Props.C119_case"
   ],
   "note": "The relying party is Spec/RelyingParty.lean. Assumes random draws that do not repeat and fewer than 2^32 GetAssertion requests; without a restart is shown for parties that do not demand user verification (with it: C119_login_accepted and C119_registered_can_login). After a restart the claim is refuted by C119_restart_refuted."
  },
  {
   "property": "C120",
   "status": "proved",
   "theorems": [
    "VF.Props.C120_registration_accepted",
    "VF.Props.C120_login_accepted",
    "VF.Props.C120_registered_can_login",
    "VF.Props.C120_restart_refuted",
    "VF.Props.C120_case"
   ],
   "note": "The relying party is Spec/U2fParty.lean. Registration assumes nonces that do not repeat; a party that looks at counters, fewer than 2^32 authentication requests. Without the saving before a restart the claim is refuted by C120_restart_refuted."
  },
  {
   "property": "C121",
   "status": "proved",
   "theorems": [
    "VF.Props.C121_no_fault",
    "VF.Props.C121_memory_in_use",
    "VF.Props.C121_left_after_close",
    "VF.Props.C121_bounded_refuted",
    "VF.Props.C121_stop_device_refuted",
    "VF.Props.C121_long_report_refuted",
    "VF.Props.C121_same_queue",
    "VF.Props.C121_packet",
    "VF.Props.C121_packet_copies_refuted",
    "VF.Props.C121_long_packet_refuted",
    "VF.Props.C121_no_memory_refuted",
    "VF.Props.C121_case"
   ],
   "note": "Model/MacMemory.lean has the C++ code on a heap with an arbitrary allocator; Spec/MacMemory.lean is the driver with a plain queue. The sentences in parentheses are the theorems ending in _refuted. What DriverKit checks before a method is called is assumed (see the comment of external); methods of one client do not overlap."
  },
  {
   "property": "C122",
   "status": "proved",
   "theorems": [
    "VF.Props.C122_certificate",
    "VF.Props.C122_authority",
    "VF.Props.C122_chain",
    "VF.Props.C122_serials_refuted",
    "VF.Props.C122_case"
   ],
   "note": "Requirements and path validation are in Spec/Attestation.lean. Assumed of the library (Spec/Laws.lean): a certificate that is made says what its template says and is issued in the name of the parent certificate's subject. Times are readings of the clock, one for each draw from the random source. The sentence in parentheses is C122_serials_refuted."
  },
  {
   "property": "C123",
   "status": "proved",
   "theorems": [
    "VF.Props.C123_arguments_ignored",
    "VF.Props.C123_each_process",
    "VF.Props.C123_one_authority",
    "VF.Props.C123_starts",
    "VF.Props.C123_handles_bound_refuted",
    "VF.Props.C123_before_saving_refuted",
    "VF.Props.C123_case"
   ],
   "note": "Model/Launch.lean is the demo with the arguments it makes for each start. The sentences in parentheses are C123_before_saving_refuted and C123_handles_bound_refuted."
  },
  {
   "property": "C124",
   "status": "proved",
   "theorems": [
    "VF.Props.C124_answers",
    "VF.Props.C124_no_credentials",
    "VF.Props.C124_found",
    "VF.Props.C124_usable",
    "VF.Props.C124_first_made",
    "VF.Props.C124_case",
    "VF.Props.C124_replaced_refuted",
    "VF.Props.C124_elsewhere_refuted"
   ],
   "note": "Spec/Accounts.lean is the list. The two sentences in parentheses are C124_replaced_refuted and C124_elsewhere_refuted."
  },
  {
   "property": "C125",
   "status": "proved",
   "theorems": [
    "VF.Props.C125_old_device",
    "VF.Props.C125_provenance",
    "VF.Props.C125_old_unforged",
    "VF.Props.C125_any_old_file",
    "VF.Props.C125_case",
    "VF.Props.C125_deleted_returns_refuted",
    "VF.Props.C125_counters_refuted"
   ],
   "note": "What others cannot make is Spec.Tamper.Unforged, the integrity of AES-GCM: what opens under the key made from the passphrase, or under a data key, was encrypted by the device under it (pieces of several files may be put together). Whole earlier files always satisfy it (C125_old_unforged). Random draws of 32 bytes are assumed not to repeat. A missing file (which starts a new device) is not written by anybody here. The sentences in parentheses are C125_any_old_file, C125_deleted_returns_refuted and C125_counters_refuted."
  },
  {
   "property": "C126",
   "status": "proved",
   "theorems": [
    "VF.Props.C126_same_device",
    "VF.Props.C126_tells_no_more",
    "VF.Props.C126_token_shows_hash",
    "VF.Props.C126_set_shows_hash",
    "VF.Props.C126_hash_gives_token",
    "VF.Props.C126_foreign_shows_key",
    "VF.Props.C126_case",
    "VF.Props.C126_pin_refuted",
    "VF.Props.C126_key_refuted"
   ],
   "note": "Model/Logged.lean has the handlers with their log statements; C126_same_device says that they are the handlers of the other theorems. Values are logged as wholes, what Printf makes of them is left open. Which levels are shown is C69. The transports (usb/ip, USB, CTAP-HID, macOS) log only what passes through them and are not included. What is left out of the claim is Spec.LogSecrets.Discreet; the sentences in parentheses are C126_token_shows_hash, C126_set_shows_hash, C126_hash_gives_token, C126_foreign_shows_key, and from the start of a device C126_pin_refuted and C126_key_refuted."
  },
  {
   "property": "C127",
   "status": "proved",
   "theorems": [
    "VF.Props.C127_channel_bound",
    "VF.Props.C127_channel_stays",
    "VF.Props.C127_channels_refuted",
    "VF.Props.C127_log_kept",
    "VF.Props.C127_log_unshown",
    "VF.Props.C127_log_refuted",
    "VF.Props.C127_case"
   ],
   "note": "Lengths are counted, not the capacity Go reserves beyond them. Only channels and log buffers: what keys, credentials and the approvals take is small and grows only with registrations, goroutines end with their request (C105). The sentences in parentheses are C127_channel_stays, C127_channels_refuted and C127_log_refuted."
  },
  {
   "property": "C128",
   "status": "proved",
   "theorems": [
    "VF.Props.C128_alive",
    "VF.Props.C128_none_lost",
    "VF.Props.C128_pin_requests",
    "VF.Props.C128_own_handles",
    "VF.Props.C128_eight_attempts_refuted",
    "VF.Props.C128_eight_attempts_case",
    "VF.Props.C128_case"
   ],
   "note": "Spec/Harmless.lean says which requests and hosts are meant; C128_pin_requests and C128_own_handles say that PIN requests made as the protocol says and key handles of registrations are among them. The certificate key is an ECDSA key and its certificate readable (CanAttest), as NewDefaultClient's callers make them. The sentence in parentheses is C128_eight_attempts_refuted."
  },
  {
   "property": "C129",
   "status": "proved",
   "theorems": [
    "VF.Props.C129_reports",
    "VF.Props.C129_alive",
    "VF.Props.C129_all_answered",
    "VF.Props.C129_in_order",
    "VF.Props.C129_spoken",
    "VF.Props.C129_single_reports",
    "VF.Props.C129_unreadable_refuted",
    "VF.Props.C129_unreadable_case",
    "VF.Props.C129_case"
   ],
   "note": "Spec/Readable.lean says which reports, Spec/Harmless.lean which requests. HostsBehave (Props/Answered.lean) speaks of the operations the authenticator was given; C129_spoken derives its first half from the reports alone, in all orders in which they may be dealt with, and C129_single_reports gives a simple case of that. That the device comes to rest is C104. Fewer than 2^32-1 reports, as in C103. Two goroutines in the channels map at once, which Go may end the process for, are not shown by the model (see Model/Reports.lean and C111). The sentence in parentheses is C129_unreadable_refuted."
  },
  {
   "property": "C130",
   "status": "proved",
   "theorems": [
    "VF.Props.C130_usbip_alive",
    "VF.Props.C130_usbip_in_order",
    "VF.Props.C130_usbip_comes_to_rest",
    "VF.Props.C130_mac_alive",
    "VF.Props.C130_mac_in_order",
    "VF.Props.C130_mac_comes_to_rest",
    "VF.Props.C130_usbip_case",
    "VF.Props.C130_mac_case"
   ],
   "note": "C112 and C107 (which also say that the device must come to rest) without a panic among their hypotheses. Driver (Props/Server.lean) says what kind of USB/IP client is meant: its commands are those of a Linux host, with transfers of at most 64 bytes, on a network whose writes succeed. HostsBehave is C129's."
  },
  {
   "property": "C131",
   "status": "proved",
   "theorems": [
    "VF.Props.C131_mac",
    "VF.Props.C131_usbip",
    "VF.Props.C131_mac_accepted",
    "VF.Props.C131_usbip_accepted",
    "VF.Props.C131_mac_u2f_accepted",
    "VF.Props.C131_usbip_u2f_accepted",
    "VF.Props.C131_mac_case",
    "VF.Props.C131_usbip_case"
   ],
   "note": "The joint of the transports (C106 to C112) with the relying parties (C119, C120): talk is read off the reports alone (Spec/Conversation.lean). OnMac and OverUsbIp collect what is assumed of the host. For WebAuthn restarts are excluded from what was done before, as in C119; for U2F they are not (Settled, as in C120). C131_mac_case and C131_usbip_case are runs of the whole stack, by reports, in which a credential is created and used to log in, both with success. As in C108, answers of more than 7609 bytes (which do not fit a CTAPHID message) are excluded."
  },
  {
   "property": "C132",
   "status": "proved",
   "theorems": [
    "VF.Props.C132_mac",
    "VF.Props.C132_usbip",
    "VF.Props.C132_mac_u2f",
    "VF.Props.C132_usbip_u2f",
    "VF.Props.C132_mac_case",
    "VF.Props.C132_usbip_case",
    "VF.Props.C132_mac_u2f_case",
    "VF.Props.C132_usbip_u2f_case"
   ],
   "note": "C119_registered_can_login and C120_registered_can_login through C131. AsksLogin and AsksU2fLogin (Props/HostLogin.lean) say what is asked last and what the user does. The cases are whole runs by reports (CTAP2: three reports and two; U2F: two and five), evaluated by the kernel, in which the host registers and then logs in."
  },
  {
   "property": "C133",
   "status": "proved",
   "theorems": [
    "VF.Props.C133_one_client",
    "VF.Props.C133_who_stays",
    "VF.Props.C133_attach",
    "VF.Props.C133_mac",
    "VF.Props.C133_tried_once",
    "VF.Props.C133_goes_on",
    "VF.Props.C133_case"
   ],
   "note": "Model/Listener.lean is the loop of Start over the connections, and runServer as a machine of two goroutines. What usbip attach does with its arguments, what it sends and what it checks in the answer is Spec/Attach.lean (the Linux and Windows programs). That handleOpen is the loop of C22 to C26 for clients that close is handleOpen_handle; that it is given iterations enough is handleOpen_enough. FullReads: the 32 bytes of a bus id come in one read."
  },
  {
   "property": "C134",
   "status": "proved",
   "theorems": [
    "VF.Props.C134_demo",
    "VF.Props.C134_case_demo",
    "VF.Props.C134_last_set",
    "VF.Props.C134_never_set",
    "VF.Props.C134_no_tries",
    "VF.Props.C134_info",
    "VF.Props.C134_case",
    "VF.Props.C134_case_no_tries"
   ],
   "note": "Spec/PinHistory.lean reads the PIN, its support and the tries off what was requested and answered. C134_case sets a PIN, starts the device anew and meets the hypotheses of C134_last_set; C134_case_no_tries guesses eight times. C134_demo is on the demo's processes (Model/Launch), whose first start has PIN support off. That tries come back with a start is what C58 refutes as a protection."
  },
  {
   "property": "C135",
   "status": "proved",
   "theorems": [
    "VF.Props.C135_mac_token",
    "VF.Props.C135_usbip_token",
    "VF.Props.C135_mac_registration",
    "VF.Props.C135_usbip_registration",
    "VF.Props.C135_mac_login",
    "VF.Props.C135_usbip_login",
    "VF.Props.C135_case_token",
    "VF.Props.C135_case_registration",
    "VF.Props.C135_case_login"
   ],
   "note": "C134, C59 and C76/C119 through C131. Spec/HostPin.lean says what the platform computes from the answers it read. PinNow, AsksVerified and AsksVerifiedLogin (Props/HostPin.lean) say which PIN was set last and what is asked. The cases are one run by reports on macOS of five requests (key agreement, setting the PIN, token, registration, login), evaluated by the kernel. As in C59 the shared x-coordinate is assumed to fill 32 bytes."
  },
  {
   "property": "C136",
   "status": "proved",
   "theorems": [
    "VF.Props.C136_mac",
    "VF.Props.C136_usbip",
    "VF.Props.C136_mac_accepted",
    "VF.Props.C136_usbip_accepted",
    "VF.Props.C136_mac_u2f_accepted",
    "VF.Props.C136_usbip_u2f_accepted",
    "VF.Props.C136_case_mac",
    "VF.Props.C136_case_usbip"
   ],
   "note": "C131 without its condition that the host is alone. Spec/Hosts.lean says what one order of all requests is; UsedOnMac and UsedOverUsbIp (Props/Hosts.lean) say how the device is used, HostOnMac and HostOverUsbIp what a well-behaved program is. The order follows report numbers, each on the channel of its request, and is all that the process has results of. The cases are one program registering and another logging in with the same credential, reports interleaved, while a report on a channel that was never given out arrives."
  },
  {
   "property": "C137",
   "status": "proved",
   "theorems": [
    "VF.Props.C137_mac",
    "VF.Props.C137_usbip",
    "VF.Props.C137_case_mac",
    "VF.Props.C137_case_usbip",
    "VF.Props.C137_lone"
   ],
   "note": "C132 and C135 for every request in the order of C136. What is assumed of a request is as there (AsksLogin, AsksU2fLogin, PinNow, AsksVerified, AsksVerifiedLogin), of the history that is all requests of all programs before it; what a program was told is what is on its channel. The cases: C136's two programs, where it is shown that in every such order the registration on channel 1 precedes the login on channel 2, which meets the hypotheses; and C137_lone, by which the hosts of the cases of C132 and C135 meet those on U2F and PINs (a lone host is one of several, and the order is what it was told)."
  },
  {
   "property": "C138",
   "status": "proved",
   "theorems": [
    "VF.Props.C138_bound",
    "VF.Props.C138_released",
    "VF.Props.C138_kept",
    "VF.Props.C138_reached",
    "VF.Props.C138_case"
   ],
   "note": "Held is what a timer's function refers to (Usb.State.timers, the closure with its transferBuffer); when Go's collector takes back what is no longer referred to is not modelled, nor the time of a timer: a schedule says when it fires. Buffers of control transfers are given up with the command; those of output reports go to the goroutine of the report (C104, C127). That answered and withdrawn polls are kept is C138_kept. C138_released has the timers fire in one order, C138_bound covers all. C138_case is a client that has just attached."
  },
  {
   "property": "C139",
   "status": "proved",
   "theorems": [
    "VF.Props.C139_mac",
    "VF.Props.C139_usbip",
    "VF.Props.C139_case_mac",
    "VF.Props.C139_case_usbip"
   ],
   "note": "The sequential theorems C56, C90, C50, C67, C92 and C44, on the order of C136. Safe (Props/HostsSafe.lean) lists the parts. Random draws used for ids are assumed not to repeat, and fewer than 2^32 requests, for the counters. C139_case_mac and C139_case_usbip are two programs of which one creates and the other uses a credential; stretches with 8 wrong PINs are those of C56 (eight_wrong)."
  },
  {
   "property": "C140",
   "status": "proved",
   "theorems": [
    "VF.Props.C140_import",
    "VF.Props.C140_old_data_read",
    "VF.Props.C140_converted",
    "VF.Props.C140_login",
    "VF.Props.C140_unreadable_loses",
    "VF.Props.C140_case",
    "VF.Props.C140_login_case",
    "VF.Props.C140_reported_refuted"
   ],
   "note": "Spec/OldFormat.lean says what the formats are; x509.ParseECPrivateKey is a parameter that reads what x509.MarshalECPrivateKey wrote (Laws). That the CBOR library does not take a key in DER for a COSE key is the hypothesis Apart; der_no_cbor shows that it is not a CBOR item. Relying parties and users are left out, see C38; C140_login therefore takes credentials of one relying party. The sentence in parentheses is C140_unreadable_loses and, from concrete data, C140_reported_refuted. Saved data with unreadable keys are not written by the device itself (C40)."
  },
  {
   "property": "C141",
   "status": "proved",
   "theorems": [
    "VF.C141_stray",
    "VF.C141_out_of_sequence"
   ],
   "note": "Added because a seeded fault (another code for a stray continuation) broke no theorem. The states are those where the channel is free, followed by the reports of a request that is not complete; C03, C10 and C11 cover what happens otherwise."
  }
 ]
}
