NOTE["C04"] = "Delivery at most once and intact proved for every order; the wish that it is always delivered is refuted by a swapped pair."
NOTE["C07"] = "Proved for fewer than 2^32-1 successful INITs; C07_wrap_refuted shows the bound is needed."
NOTE["C09"] = "Proved for 1..7609 bytes; the empty PING is refuted."
NOTE["C14"] = "Exact crash condition (iff); the wish that no host report crashes the device is refuted."
NOTE["C16"] = "Proved while no sequence number is reused by a request still waiting; C16_reuse_refuted shows the proviso is needed."
NOTE["C18"] = "Order proved when respond calls do not overlap; C18_overlap_refuted gives a schedule of two overlapping responders that reorders."
NOTE["C72"] = "Boundedness, no leaks and termination proved; a keepalive after the final response is exhibited by C72_late_keepalive_refuted."
STATUS["C73"] = "partial"
NOTE["C73"] = "False of the code: C73_race_refuted and C73_lost_update_refuted exhibit equal counters. C73_serial_partial proves distinctness when authentications do not overlap; C73_exclusive_partial and C73_exclusive_increasing_partial prove it of the whole device when authentications do not overlap with each other, whatever other requests and calls overlap with them."
NOTE["C21"] = "Proved when each socket read returns the bytes asked for; C21_split_refuted shows a transfer buffer delivered in pieces breaks it."
STATUS["C22"] = "partial"
NOTE["C22"] = "False of the code for every device list: C22_devlist_refuted proves nothing is sent."
STATUS["C24"] = "partial"
NOTE["C24"] = "False of the code: C24_next_client_refuted proves the server never accepts again after an import. C24_without_import_partial proves it for clients that never import."
NOTE["C28"] = "Setters and getters proved; C28_class_refuted proves the disagreement with the USB specification and exactly when it occurs."
NOTE["C36"] = "C36_lookup_needs_relying_parties adds that a stored credential without relying party makes every lookup panic."
STATUS["C38"] = "partial"
NOTE["C38"] = "False of the code: C38_entities_restored_refuted is a witness, C38_entities_restored_iff says exactly when it holds (all credentials share the last one's relying party and user)."
STATUS["C51"] = "partial"
NOTE["C51"] = "False of the code: C51_refused_login_leaves_no_trace_refuted. C51_refused_login_increments_counter says exactly what a refused login changes."
STATUS["C52"] = "partial"
NOTE["C52"] = "False of the code: C52_exclude_list_honoured_refuted. C52_exclude_list_ignored proves the list has no influence at all."
NOTE["C55"] = "First half proved; second half refuted by C55_no_pin_no_token_refuted. C55_other_answers proves no other subcommand returns the token."
STATUS["C57"] = "partial"
NOTE["C57"] = "False of the code: PIN_BLOCKED is never answered (C57_never_answered_blocked) and with no retries left every attempt panics without effect (C57_locked_out_panics)."
STATUS["C58"] = "partial"
NOTE["C58"] = "False of the code: C58_restart_resets_retries proves every start gives 8 retries; C58_lockout_survives_restart_refuted is a witness. C58_pin_found proves what follows from it: who can start the program anew has every guess evaluated, however many; C58_case_found meets its hypotheses with thirty wrong guesses."
NOTE["C59"] = "Proved for agreements whose shared x coordinate has no leading zero byte (the code strips them); C59_without_proviso_refuted shows the proviso is needed."
STATUS["C65"] = "partial"
NOTE["C65"] = "False of the code: C65_foreign_box_panics proves every encoded box that does not open crashes the device, C65_wrong_data_refuted is a witness (a handle of another device). C65_undecodable_partial proves WRONG_DATA for handles that are not encoded boxes; C63_other_application for own handles of other applications."
NOTE["C66"] = "First two parts proved for every request; the last part refuted for control byte 0x08 (C66_presence_byte_refuted) and proved for all others (C66_presence)."
NOTE["C63"] = "C63_forever: over every history, with restarts and crashes, at every later point at which the device runs. C63_own_application, C63_other_application and C63_check_only are the single-request theorems for any later state with the same sealing key; C63_sealing_key shows that it never changes."
NOTE["C40"] = "Proved for every history on a device whose key agreement with the configuration is usable; restarts reload exactly the saved data (up to the relying party and user mix-up of C38)."
NOTE["C50"] = "Proved for every history with restarts, given distinct random draws for credential ids."
NOTE["C67"] = "Proved within one process; C67_across_restarts_refuted shows the counter starting again after a restart."
STATUS["C78"] = "partial"
NOTE["C78"] = "False of the code: C78_refuted is a witness history. C78_only_last_relying_party and C78_last_relying_party_gets_all say exactly what happens after every restart; C78_kept_iff says when relying parties survive (all credentials share one relying party and user)."
STATUS["C42"] = "partial"
NOTE["C42"] = "False of the code: C42_crash_refuted is a witness; C42_interrupted_save_is_fatal proves that every interruption between truncation and the last byte loses the vault. C42_complete_or_not_begun covers the other crash points."
NOTE["C69"] = "A writer that is nil or fails is not modelled; the logger ignores write errors."
STATUS["C70"] = "partial"
NOTE["C70"] = "False of the code: C70_named_identity_refuted. C70_what_it_does says what happens in every case, C70_right_identity_iff when the named identity is the one deleted (only if it is the last)."
NOTE["C71"] = "First half proved as an equivalence; questions for FIDO2 actions proved to name the action, relying party and user; C71_u2f_questions_refuted proves the U2F questions are swapped. unicode.ToLower is a parameter with LowerOk assumed."
STATUS["C79"] = "partial"
NOTE["C79"] = "False of the code: C79_quotes_refuted. C79_question_determines proves it for relying party names without quotes."
NOTE["C80"] = "Proved with the proviso; C80_lost_line_refuted shows it is needed."
NOTE["C81"] = "Proved for PINs of 4 to 18 digits without leading zero; C81_leading_zero_refuted and C81_no_leading_zero settle the rest."
NOTE["C83"] = "Sessions are those of a conforming client: distinct sequence numbers, interrupt IN polls, OUT reports, control transfers, unlinks."
NOTE["C84"] = "Proved per channel for every channel but 0; C84_zero_report_refuted is the witness for the zero report."
NOTE["C85"] = "Proved with the condition; C85_goroutine_order_refuted shows it is needed. The authenticator is a parameter here; C86 puts in the modelled one."
NOTE["C86"] = "Goroutines handling reports are atomic steps in any order; finer interleavings inside one report's handling are treated in the concurrency model only (C72, C73)."
NOTE["C35"] = "C35_device_missing and C35_device_deletes are about the API call on a running device after any history, including what a restart finds; the other theorems are about the vault alone."
NOTE["C87"] = "The table is Spec.Status; C87_one_outcome adds that it is total and single-valued. Several rows record crashes of the code (undecodable MakeCredential, PIN blocked, unknown command)."
NOTE["C88"] = "The table is Spec.U2fStatus; C88_one_outcome adds that it is total and single-valued. A handle not sealed by the device ends the process (second row of the authentication table)."
NOTE["C89"] = "What should be held is computed from the exchanged messages alone (Spec.Store.held; C89_meaning_of_held says what it means). Equal as multisets: deletion moves the last identity into the gap."
NOTE["C90"] = "The public key is read from the bytes of the earlier answer (Spec.Store.announced)."
NOTE["C92"] = "Consent is read from the answers: the user-present flag of creations and assertions, success of U2F answers (Spec.Approval.claims)."
NOTE["C93"] = "The sequential model is Model/Device, about which C39-C46, C76-C92 are proved; the interleaved one is Model/Overlap. Memory is sequentially consistent."
NOTE["C94"] = "Proved by rely-guarantee reasoning over Model/Overlap, one atomic step for each access to shared memory; the question and its answer are one step."
NOTE["C95"] = "What the answer says is spelled out in Spec.Overlap (Created, Asserted, RegisteredFor, AuthenticatedFor, Faithful), at the memory of the moment the result was there."
NOTE["C96"] = "Writing the store is one step here (interrupted writes: C42)."
NOTE["C97"] = "Assertions need no hypothesis on the PIN: their user-verified flag is covered by C95."
NOTE["C98"] = "Spec.Overlap.Entitled says what entitles a request, Vouched that it was entitled at one of its own steps. The hash shown is that of the PIN at this step; another request may change the PIN before this one writes."
STATUS["C99"] = "partial"
NOTE["C99"] = "False of the code: C99_guesses_at_once proves that whenever the PIN can be tried, any list of wrong PINs can be tried at once for one retry; C99_limit_refuted is the witness against the limit. One after the other the limit holds (C56, C93). C99_in_a_row_partial and C99_at_most_eight_partial: it holds as long as ClientPIN requests do not overlap with each other, whatever other requests and calls overlap with them."
STATUS["C100"] = "partial"
NOTE["C100"] = "False of the code: C100_kept_in_memory_refuted (two creations) and C100_kept_in_store_refuted (a creation and switching the PIN off). One after the other credentials are kept (C89, C93). C100_in_memory_partial: kept on the list as long as creations and deletions do not overlap with each other; C100_in_store_partial: kept in the saved data too as long as the operations that save do not overlap with each other; whatever else overlaps with them."
STATUS["C101"] = "partial"
NOTE["C101"] = "False of the code: C101_counters_differ_refuted. One after the other counters increase (C50, C93); C101_partial and C101_increasing_partial prove that counters differ and increase when logins do not overlap with each other, whatever other requests and calls overlap with them."
NOTE["C102"] = "The table is Spec.Overlap.touches, what stays the same is Spec.Overlap.Keeps."
NOTE["C103"] = "Spec.Live.Account is the statement: an account of all reports, requests, operations and answers. Which requests are in reports is Spec.Service.Heard, which is functional (C103_requests_determined) and finds all requests of a conforming host (C103_all_heard). Reports of one channel may be handled in another order than they came in, hence a permutation in C103_each_answered_once; C103_in_order needs no permutation where they come in one by one. The theorem needs answers to fit a CTAPHID message (C65) and fewer than 2^32-1 reports."
NOTE["C104"] = "Endless work is excluded for all infinite sequences of steps; C104_no_deadlock is about all states reached, C104_rest its converse."
NOTE["C105"] = "Holds of every account of the state (C103 gives one)."
NOTE["C106"] = "CTAPHID_CANCEL is therefore without effect on a request at work; the CTAPHID specification wants it to stop the request."
NOTE["C107"] = "That a report is lost when more than seventeen wait is C107_oldest_lost. Paced is the hypothesis that this does not happen. A report larger than 64 bytes, which newHIDFrame would copy over the end of its frame, is excluded."
NOTE["C108"] = "Spec.Overlap.sequential of the memory is the world of Device.after, the sequential model all properties on histories (C38 onwards) are about; the order of requests is that of the reports completing them (calls.map report increasing)."
NOTE["C110"] = "Needs the draws of each length that the process has made to differ (Spec.Draws.Distinct, DistinctKeys); that crypto/rand gives such draws is assumed."
NOTE["C111"] = "C111_one_writer: no two writers. C111_race: the race of a reader with a writer over USB/IP, reachable from every state in which a channel is about to be created (the example shows one). The abort by the Go runtime itself is outside the model."
NOTE["C112"] = "Extends C83-C85 (where a report is handled in one step) and C103-C105 (where there is no USB/IP) to everything at once. Reports of one channel may be handled in another order than handed over (C85_goroutine_order_refuted), hence the permutation in C112_each_answered_once and the hypothesis OneByOne in C112_in_order. Needs answers that fit a CTAPHID message (C65), fewer than 2^32-1 reports and reads that are not cut short (C21)."
NOTE["C113"] = "Spec/Enumerate.lean has readers for device, configuration, string and HID report descriptors written from the USB and HID specifications. The three deviations in parentheses are C113_release_refuted, C113_configuration_number_refuted and C113_logical_maximum_refuted. The properties of newDeviceDescription (USBDevice.cpp:51-125) are not modelled."
NOTE["C114"] = "C114_commands_refuted is the deviation in parentheses."
NOTE["C115"] = "A relational theorem on pairs of runs (Proofs/PinTwin.lean). What presenting a PIN means is Spec.Secrecy.Presents: only requests for a token and to change the PIN do. The saved data is compared by what a restart makes of it, not byte by byte; timing is outside the model."
NOTE["C117"] = "C117_revoked_by_new_pin_refuted is the deviation in parentheses, on a concrete device."
NOTE["C116"] = "A relational theorem on pairs of runs (Proofs/VaultTwin.lean). Spec.Isolation.DifferInOthers relates the devices (draws and past questions equal), Within restricts the history. C116_after_restart_refuted is the deviation in parentheses, on two devices with a common history up to their last step; it is also the concrete case of the hypotheses."
NOTE["C118"] = "Other processes are modelled by what they write (any bytes, Model/Processes.lean); a write is one step (interrupted ones are C42)."
NOTE["C119"] = "The relying party is Spec/RelyingParty.lean. Assumes random draws that do not repeat and fewer than 2^32 GetAssertion requests; without a restart is shown for parties that do not demand user verification (with it: C119_login_accepted and C119_registered_can_login). After a restart the claim is refuted by C119_restart_refuted."
NOTE["C120"] = "The relying party is Spec/U2fParty.lean. Registration assumes nonces that do not repeat; a party that looks at counters, fewer than 2^32 authentication requests. Without the saving before a restart the claim is refuted by C120_restart_refuted."
NOTE["C121"] = "Model/MacMemory.lean has the C++ code on a heap with an arbitrary allocator; Spec/MacMemory.lean is the driver with a plain queue. The sentences in parentheses are the theorems ending in _refuted. What DriverKit checks before a method is called is assumed (see the comment of external); methods of one client do not overlap."
NOTE["C122"] = "Requirements and path validation are in Spec/Attestation.lean. Assumed of the library (Spec/Laws.lean): a certificate that is made says what its template says and is issued in the name of the parent certificate's subject. Times are readings of the clock, one for each draw from the random source. The sentence in parentheses is C122_serials_refuted."
NOTE["C123"] = "Model/Launch.lean is the demo with the arguments it makes for each start. The sentences in parentheses are C123_before_saving_refuted and C123_handles_bound_refuted."
NOTE["C124"] = "Spec/Accounts.lean is the list. The two sentences in parentheses are C124_replaced_refuted and C124_elsewhere_refuted."
NOTE["C125"] = "What others cannot make is Spec.Tamper.Unforged, the integrity of AES-GCM: what opens under the key made from the passphrase, or under a data key, was encrypted by the device under it (pieces of several files may be put together). Whole earlier files always satisfy it (C125_old_unforged). Random draws of 32 bytes are assumed not to repeat. A missing file (which starts a new device) is not written by anybody here. The sentences in parentheses are C125_any_old_file, C125_deleted_returns_refuted and C125_counters_refuted."
NOTE["C126"] = "Model/Logged.lean has the handlers with their log statements; C126_same_device says that they are the handlers of the other theorems. Values are logged as wholes, what Printf makes of them is left open. Which levels are shown is C69. The transports (usb/ip, USB, CTAP-HID, macOS) log only what passes through them and are not included. What is left out of the claim is Spec.LogSecrets.Discreet; the sentences in parentheses are C126_token_shows_hash, C126_set_shows_hash, C126_hash_gives_token, C126_foreign_shows_key, and from the start of a device C126_pin_refuted and C126_key_refuted."
NOTE["C127"] = "Lengths are counted, not the capacity Go reserves beyond them. Only channels and log buffers: what keys, credentials and the approvals take is small and grows only with registrations, goroutines end with their request (C105). The sentences in parentheses are C127_channel_stays, C127_channels_refuted and C127_log_refuted."
NOTE["C128"] = "Spec/Harmless.lean says which requests and hosts are meant; C128_pin_requests and C128_own_handles say that PIN requests made as the protocol says and key handles of registrations are among them. The certificate key is an ECDSA key and its certificate readable (CanAttest), as NewDefaultClient's callers make them. The sentence in parentheses is C128_eight_attempts_refuted."
NOTE["C129"] = "Spec/Readable.lean says which reports, Spec/Harmless.lean which requests. HostsBehave (Props/Answered.lean) speaks of the operations the authenticator was given; C129_spoken derives its first half from the reports alone, in all orders in which they may be dealt with, and C129_single_reports gives a simple case of that. That the device comes to rest is C104. Fewer than 2^32-1 reports, as in C103. Two goroutines in the channels map at once, which Go may end the process for, are not shown by the model (see Model/Reports.lean and C111). The sentence in parentheses is C129_unreadable_refuted."
NOTE["C130"] = "C112 and C107 (which also say that the device must come to rest) without a panic among their hypotheses. Driver (Props/Server.lean) says what kind of USB/IP client is meant: its commands are those of a Linux host, with transfers of at most 64 bytes, on a network whose writes succeed. HostsBehave is C129's."
NOTE["C131"] = "The joint of the transports (C106 to C112) with the relying parties (C119, C120): talk is read off the reports alone (Spec/Conversation.lean). OnMac and OverUsbIp collect what is assumed of the host. For WebAuthn restarts are excluded from what was done before, as in C119; for U2F they are not (Settled, as in C120). C131_mac_case and C131_usbip_case are runs of the whole stack, by reports, in which a credential is created and used to log in, both with success. As in C108, answers of more than 7609 bytes (which do not fit a CTAPHID message) are excluded."
NOTE["C132"] = "C119_registered_can_login and C120_registered_can_login through C131. AsksLogin and AsksU2fLogin (Props/HostLogin.lean) say what is asked last and what the user does. The cases are whole runs by reports (CTAP2: three reports and two; U2F: two and five), evaluated by the kernel, in which the host registers and then logs in."
NOTE["C133"] = "Model/Listener.lean is the loop of Start over the connections, and runServer as a machine of two goroutines. What usbip attach does with its arguments, what it sends and what it checks in the answer is Spec/Attach.lean (the Linux and Windows programs). That handleOpen is the loop of C22 to C26 for clients that close is handleOpen_handle; that it is given iterations enough is handleOpen_enough. FullReads: the 32 bytes of a bus id come in one read."
NOTE["C134"] = "Spec/PinHistory.lean reads the PIN, its support and the tries off what was requested and answered. C134_case sets a PIN, starts the device anew and meets the hypotheses of C134_last_set; C134_case_no_tries guesses eight times. C134_demo is on the demo's processes (Model/Launch), whose first start has PIN support off. That tries come back with a start is what C58 refutes as a protection."
NOTE["C135"] = "C134, C59 and C76/C119 through C131. Spec/HostPin.lean says what the platform computes from the answers it read. PinNow, AsksVerified and AsksVerifiedLogin (Props/HostPin.lean) say which PIN was set last and what is asked. The cases are one run by reports on macOS of five requests (key agreement, setting the PIN, token, registration, login), evaluated by the kernel. As in C59 the shared x-coordinate is assumed to fill 32 bytes."
NOTE["C136"] = "C131 without its condition that the host is alone. Spec/Hosts.lean says what one order of all requests is; UsedOnMac and UsedOverUsbIp (Props/Hosts.lean) say how the device is used, HostOnMac and HostOverUsbIp what a well-behaved program is. The order follows report numbers, each on the channel of its request, and is all that the process has results of. The cases are one program registering and another logging in with the same credential, reports interleaved, while a report on a channel that was never given out arrives."
NOTE["C137"] = "C132 and C135 for every request in the order of C136. What is assumed of a request is as there (AsksLogin, AsksU2fLogin, PinNow, AsksVerified, AsksVerifiedLogin), of the history that is all requests of all programs before it; what a program was told is what is on its channel. The cases: C136's two programs, where it is shown that in every such order the registration on channel 1 precedes the login on channel 2, which meets the hypotheses; and C137_lone, by which the hosts of the cases of C132 and C135 meet those on U2F and PINs (a lone host is one of several, and the order is what it was told)."
NOTE["C138"] = "Held is what a timer's function refers to (Usb.State.timers, the closure with its transferBuffer); when Go's collector takes back what is no longer referred to is not modelled, nor the time of a timer: a schedule says when it fires. Buffers of control transfers are given up with the command; those of output reports go to the goroutine of the report (C104, C127). That answered and withdrawn polls are kept is C138_kept. C138_released has the timers fire in one order, C138_bound covers all. C138_case is a client that has just attached."
NOTE["C139"] = "The sequential theorems C56, C90, C50, C67, C92 and C44, on the order of C136. Safe (Props/HostsSafe.lean) lists the parts. Random draws used for ids are assumed not to repeat, and fewer than 2^32 requests, for the counters. C139_case_mac and C139_case_usbip are two programs of which one creates and the other uses a credential; stretches with 8 wrong PINs are those of C56 (eight_wrong)."
NOTE["C140"] = "Spec/OldFormat.lean says what the formats are; x509.ParseECPrivateKey is a parameter that reads what x509.MarshalECPrivateKey wrote (Laws). That the CBOR library does not take a key in DER for a COSE key is the hypothesis Apart; der_no_cbor shows that it is not a CBOR item. Relying parties and users are left out, see C38; C140_login therefore takes credentials of one relying party. The sentence in parentheses is C140_unreadable_loses and, from concrete data, C140_reported_refuted. Saved data with unreadable keys are not written by the device itself (C40)."
NOTE["C141"] = "Added because a seeded fault (another code for a stray continuation) broke no theorem. The states are those where the channel is free, followed by the reports of a request that is not complete; C03, C10 and C11 cover what happens otherwise."
