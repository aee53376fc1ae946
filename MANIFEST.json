{
 "claims": [
  {
   "property": "C01",
   "status": "proved",
   "theorems": [
    "Iris.C01_deny_by_default"
   ],
   "note": ""
  },
  {
   "property": "C02",
   "status": "proved",
   "theorems": [
    "Iris.C02_file_open_exact",
    "Iris.C02_denotes_unique"
   ],
   "note": ""
  },
  {
   "property": "C03",
   "status": "proved",
   "theorems": [
    "Iris.C03_no_excess_access"
   ],
   "note": ""
  },
  {
   "property": "C04",
   "status": "proved",
   "theorems": [
    "Iris.C04_canonical_only",
    "Iris.C04_not_canonical_text"
   ],
   "note": ""
  },
  {
   "property": "C05",
   "status": "proved",
   "theorems": [
    "Iris.C05_directory_rule_exact",
    "Iris.C05_file_rule_exact",
    "Iris.C05_other_rules_irrelevant",
    "Iris.C05_sibling_not_covered"
   ],
   "note": ""
  },
  {
   "property": "C06",
   "status": "proved",
   "theorems": [
    "Iris.C06_monotone"
   ],
   "note": ""
  },
  {
   "property": "C07",
   "status": "proved",
   "theorems": [
    "Iris.C07_order_irrelevant"
   ],
   "note": ""
  },
  {
   "property": "C08",
   "status": "proved",
   "theorems": [
    "Iris.C08_rejected_rule"
   ],
   "note": ""
  },
  {
   "property": "C09",
   "status": "proved",
   "theorems": [
    "Iris.C09_rule_trailing_separator",
    "Iris.C09_request_trailing_separator"
   ],
   "note": ""
  },
  {
   "property": "C10",
   "status": "proved",
   "theorems": [
    "Iris.C10_probe_bound",
    "Iris.C10_probes_decide"
   ],
   "note": ""
  },
  {
   "property": "C11",
   "status": "partial",
   "theorems": [
    "Iris.C11_root_rule_violated",
    "Iris.C11_directory_rule_covers_subtree_partial"
   ],
   "note": "Violated by the code: allow_dir_read(\"/\") is accepted and grants nothing (C11_root_rule_violated). The partial theorem covers every other directory."
  },
  {
   "property": "C12",
   "status": "proved",
   "theorems": [
    "Iris.C12_unsupported_flags"
   ],
   "note": ""
  },
  {
   "property": "C13",
   "status": "proved",
   "theorems": [
    "Iris.C13_audit_only"
   ],
   "note": ""
  },
  {
   "property": "C14",
   "status": "proved",
   "theorems": [
    "Iris.C14_notifications"
   ],
   "note": ""
  },
  {
   "property": "C15",
   "status": "proved",
   "theorems": [
    "Iris.C15_broker_answers_enosys",
    "Iris.C15_syscalls_refused"
   ],
   "note": "Policy part (C15_ in Props/LinuxPolicy) and broker part (reply is -ENOSYS, nothing executed)."
  },
  {
   "property": "C16",
   "status": "proved",
   "theorems": [
    "Iris.C16_runtime_policy",
    "Iris.C16_equal_policies_decide_equally",
    "Iris.C16_equality_reflexive",
    "Iris.C16_equality_exact"
   ],
   "note": ""
  },
  {
   "property": "C17",
   "status": "proved",
   "theorems": [
    "Iris.C17_lock_rules_irrelevant"
   ],
   "note": ""
  },
  {
   "property": "C18",
   "status": "proved",
   "theorems": [
    "Iris.C18_opens_what_is_granted",
    "Iris.C18_nothing_else_opened"
   ],
   "note": ""
  },
  {
   "property": "C19",
   "status": "proved",
   "theorems": [
    "Iris.C19_reply_and_descriptor",
    "Iris.C19_negative_codes"
   ],
   "note": ""
  },
  {
   "property": "C20",
   "status": "proved",
   "theorems": [
    "Iris.C20_one_reply_per_request",
    "Iris.C20_keeps_serving"
   ],
   "note": ""
  },
  {
   "property": "C21",
   "status": "proved",
   "theorems": [
    "Iris.C21_nothing_before_handshake",
    "Iris.C21_handshake_reply",
    "Iris.C21_second_initialization"
   ],
   "note": ""
  },
  {
   "property": "C22",
   "status": "proved",
   "theorems": [
    "Iris.C22_hostile_message_ends_session"
   ],
   "note": ""
  },
  {
   "property": "C23",
   "status": "partial",
   "theorems": [
    "Iris.C23_violated",
    "Iris.C23_violated_by_any_granted_nul",
    "Iris.C23_no_panic_partial"
   ],
   "note": "Violated by the code: a NUL in a path the policy grants panics the broker thread (C23_violated, C23_violated_by_any_granted_nul). The partial theorem covers all other sessions."
  },
  {
   "property": "C24",
   "status": "partial",
   "theorems": [
    "Iris.C24_nothing_kept_while_running",
    "Iris.C24_at_most_one_kept_partial",
    "Iris.C24_nothing_kept_on_32_bit",
    "Iris.C24_nothing_kept_partial",
    "Iris.C24_violated"
   ],
   "note": "Violated on x86_64: the second descriptor attached by a worker stays open in the broker (C24_violated), at most one per session. Holds on 32-bit builds, and on x86_64 for sessions where at most one descriptor is attached to a message."
  },
  {
   "property": "C25",
   "status": "partial",
   "theorems": [
    "Iris.C25_exact_on_32_bit",
    "Iris.C25_violated_second_descriptor",
    "Iris.C25_violated_no_stdin",
    "Iris.C25_violated",
    "Iris.C25_transfer_x86_64_partial",
    "Iris.C25_no_handle_no_descriptor"
   ],
   "note": "Violated on x86_64: cmsg_len is CMSG_SPACE(4), which covers two descriptors, so descriptor 0 of the sender goes along (C25_violated*). Proved in full for 32-bit builds; partial theorem for x86_64."
  },
  {
   "property": "C26",
   "status": "proved",
   "theorems": [
    "Iris.C26_whole_messages",
    "Iris.C26_whole_responses",
    "Iris.C26_whole_results",
    "Iris.C26_truncated_never_decoded",
    "Iris.C26_oversized_is_error",
    "Iris.C26_no_empty_message"
   ],
   "note": ""
  },
  {
   "property": "C27",
   "status": "proved",
   "theorems": [
    "Iris.C27_request_round_trip",
    "Iris.C27_request_encodes",
    "Iris.C27_request_sent_iff"
   ],
   "note": ""
  },
  {
   "property": "C28",
   "status": "proved",
   "theorems": [
    "Iris.C28_result_round_trip",
    "Iris.C28_policy_round_trip",
    "Iris.C28_built_policies_qualify"
   ],
   "note": ""
  },
  {
   "property": "C29",
   "status": "proved",
   "theorems": [
    "Iris.C29_request_within_input",
    "Iris.C29_integers_in_range",
    "Iris.C29_unknown_kind_refused",
    "Iris.C29_response_within_input"
   ],
   "note": ""
  },
  {
   "property": "C30",
   "status": "proved",
   "theorems": [
    "Iris.C30_prefix_free",
    "Iris.C30_injective"
   ],
   "note": ""
  },
  {
   "property": "C31",
   "status": "partial",
   "theorems": [
    "Iris.C31_returns_partial",
    "Iris.C31_long_path_panics",
    "Iris.C31_returns_iff",
    "Iris.C31_violated"
   ],
   "note": "Violated by the code: a path longer than 64 KiB makes the worker panic (C31_violated, C31_long_path_panics). C31_returns_iff says exactly which calls return: those whose message, with the path and the flags, has at most 65536 bytes; C31_returns_partial covers every path of up to 65527 bytes."
  },
  {
   "property": "C32",
   "status": "proved",
   "theorems": [
    "Iris.C32_own_answers",
    "Iris.C32_all_answered",
    "Iris.C32_with_the_broker"
   ],
   "note": ""
  },
  {
   "property": "C33",
   "status": "proved",
   "theorems": [
    "Iris.C33_raw_round_trip",
    "Iris.C33_into_raw_empties"
   ],
   "note": ""
  },
  {
   "property": "C34",
   "status": "proved",
   "theorems": [
    "Iris.C34_set_inheritable",
    "Iris.C34_set_inheritable_fails"
   ],
   "note": ""
  },
  {
   "property": "C35",
   "status": "proved",
   "theorems": [
    "Iris.C35_owned_descriptors",
    "Iris.C35_closed_exactly_once",
    "Iris.C35_no_leak"
   ],
   "note": ""
  },
  {
   "property": "C36",
   "status": "proved",
   "theorems": [
    "Iris.C36_add",
    "Iris.C36_environment",
    "Iris.C36_settings",
    "Iris.C36_unique"
   ],
   "note": ""
  },
  {
   "property": "C37",
   "status": "proved",
   "theorems": [
    "Iris.C37_environment",
    "Iris.C37_reserved_name"
   ],
   "note": ""
  },
  {
   "property": "C38",
   "status": "proved",
   "theorems": [
    "Iris.C38_exact",
    "Iris.C38_not_inheritable",
    "Iris.C38_allow"
   ],
   "note": ""
  },
  {
   "property": "C39",
   "status": "proved",
   "theorems": [
    "Iris.C39_nothing_leaks"
   ],
   "note": ""
  },
  {
   "property": "C40",
   "status": "partial",
   "theorems": [
    "Iris.C40_streams_partial",
    "Iris.C40_violated",
    "Iris.C40_same_number_never_starts"
   ],
   "note": "Violated by the code when stdout is redirected to descriptor 0 of the broker, or stderr to 0 or 1: the stream already put there is duplicated (C40_violated); a stream redirected to its own number is never started (C40_same_number_never_starts). The partial theorem covers every other combination."
  },
  {
   "property": "C41",
   "status": "partial",
   "theorems": [
    "Iris.C41_writes_fail",
    "Iris.C41_violated",
    "Iris.C41_goes_nowhere_partial"
   ],
   "note": "Violated by the code for every worker: the null device is opened for reading only, so writes fail with EBADF (C41_writes_fail, C41_violated). Proved: nothing written goes anywhere."
  },
  {
   "property": "C42",
   "status": "proved",
   "theorems": [
    "Iris.C42_hardened",
    "Iris.C42_steps_needed"
   ],
   "note": ""
  },
  {
   "property": "C43",
   "status": "partial",
   "theorems": [
    "Iris.C43_violated",
    "Iris.C43_no_capability_partial",
    "Iris.C43_never_gains",
    "Iris.C43_bounding"
   ],
   "note": "Violated by the code: failures to drop capabilities are not fatal (C43_violated). Proved when cap_get_proc, cap_clear and cap_set_proc succeed, and in all cases that nothing is gained. C43_bounding: if no call fails the bounding set loses every capability the kernel knows."
  },
  {
   "property": "C44",
   "status": "partial",
   "theorems": [
    "Iris.C44_bytes",
    "Iris.C44_faithful_partial",
    "Iris.C44_no_message",
    "Iris.C44_violated"
   ],
   "note": "Violated by the code: a failed read of the pipe is taken for success (C44_violated). The partial theorem covers all other runs."
  },
  {
   "property": "C45",
   "status": "partial",
   "theorems": [
    "Iris.C45_violated",
    "Iris.C45_full_statement_false",
    "Iris.C45_no_executable_memory_partial"
   ],
   "note": "Violated by the code: the mmap of 32-bit x86 (number 90), also reachable from a 64-bit worker, takes its arguments from memory, so an executable mapping passes the filter (C45_violated). Proved for every other call of the three architectures."
  },
  {
   "property": "C46",
   "status": "proved",
   "theorems": [
    "Iris.C46_only_listed",
    "Iris.C46_outside_trapped"
   ],
   "note": ""
  },
  {
   "property": "C47",
   "status": "partial",
   "theorems": [
    "Iris.C47_signals_self_partial",
    "Iris.C47_violated_in_namespace",
    "Iris.C47_violated"
   ],
   "note": "Violated by the code: the filter compares with the number the worker has in the broker namespace, but workers normally get their own PID namespace, where their number is 1 (C47_violated, C47_violated_in_namespace). Proved for workers without one."
  },
  {
   "property": "C48",
   "status": "proved",
   "theorems": [
    "Iris.C48_prelude",
    "Iris.C48_needs_load"
   ],
   "note": ""
  },
  {
   "property": "C49",
   "status": "partial",
   "theorems": [
    "Iris.C49_violated_by_address",
    "Iris.C49_violated",
    "Iris.C49_violated_by_filter",
    "Iris.C49_patch_partial"
   ],
   "note": "Violated by the code for addresses whose low half is 0xCAFECAFE and for filters containing the placeholder bytes (C49_violated_by_address, C49_violated_by_filter). Proved for everything else."
  },
  {
   "property": "C50",
   "status": "proved",
   "theorems": [
    "Iris.C50_rerun_x86_64",
    "Iris.C50_rerun_i686",
    "Iris.C50_same_call_x86_64",
    "Iris.C50_same_call_i686",
    "Iris.C50_machine_code_x86_64",
    "Iris.C50_machine_code_i686",
    "Iris.C50_routines_are_read_back"
   ],
   "note": ""
  },
  {
   "property": "C51",
   "status": "partial",
   "theorems": [
    "Iris.C51_success_is_right_partial",
    "Iris.C51_read_always_refused",
    "Iris.C51_violated"
   ],
   "note": "Violated by the code: the access mode is used as open flags, so access(path, R_OK) is always refused (C51_violated, C51_read_always_refused). Proved: success is never wrong."
  },
  {
   "property": "C52",
   "status": "partial",
   "theorems": [
    "Iris.C52_open_partial",
    "Iris.C52_absolute_names",
    "Iris.C52_others_refused",
    "Iris.C52_violated"
   ],
   "note": "Violated by the code for access, stat and chdir, which never succeed with a relative path (C52_violated, C52_others_refused). Proved for open and openat."
  },
  {
   "property": "C53",
   "status": "partial",
   "theorems": [
    "Iris.C53_never_detected",
    "Iris.C53_violated",
    "Iris.C53_nested_trap_hangs",
    "Iris.C53_no_hang_without_nesting_partial"
   ],
   "note": "Violated by the code: the thread-local flag is never set, so the diagnostic is unreachable (C53_never_detected, C53_violated) and a nested trap during an exchange hangs (C53_nested_trap_hangs). The partial theorem says what holds without nesting."
  },
  {
   "property": "C54",
   "status": "proved",
   "theorems": [
    "Iris.C54_stack_buffer"
   ],
   "note": ""
  },
  {
   "property": "C55",
   "status": "partial",
   "theorems": [
    "Iris.C55_no_interference_ilp32",
    "Iris.C55_no_interference_partial",
    "Iris.C55_same_as_alone_ilp32",
    "Iris.C55_same_as_alone_partial",
    "Iris.C55_own_channel",
    "Iris.C55_descriptors_apart",
    "Iris.C55_violated",
    "Iris.C55_violated_leak"
   ],
   "note": "Violated by the code on x86_64 if descriptor 0 of the broker is closed: the file opened for one worker can be sent to another (C55_violated, C55_violated_leak). Proved for 32-bit builds without condition, and on x86_64 while descriptor 0 stays open on one file; own channel and descriptor separation hold always."
  },
  {
   "property": "C56",
   "status": "partial",
   "theorems": [
    "Iris.C56_as_documented_partial",
    "Iris.C56_handles_not_closed_partial",
    "Iris.C56_one_handle_too_many",
    "Iris.C56_violated"
   ],
   "note": "Violated by the code: the call for a 33rd handle frees the policy, so its next use is undefined behaviour, and closes all the handles of the caller (C56_violated, C56_one_handle_too_many). The partial theorems cover all other histories: the C objects are simulated by the Rust ones."
  },
  {
   "property": "C57",
   "status": "proved",
   "theorems": [
    "Iris.C57_codes_injective",
    "Iris.C57_code_per_kind",
    "Iris.C57_code_values",
    "Iris.C57_success_path",
    "Iris.C57_success_handle",
    "Iris.C57_success_worker"
   ],
   "note": "BrokerError::CannotBuildPolicyForWorker(e) deliberately has the code of e."
  },
  {
   "property": "C58",
   "status": "proved",
   "theorems": [
    "Iris.C58_file_open_exact",
    "Iris.C58_no_excess_access",
    "Iris.C58_debug_builds"
   ],
   "note": "Release builds, and debug builds for paths without .pdb (C58_debug_builds: those are all granted). GetFullPathNameW is an arbitrary oracle, described by Spec.FullNames. Comparisons are case sensitive, as in the code."
  },
  {
   "property": "C59",
   "status": "partial",
   "theorems": [
    "Iris.C59_key_read_violated",
    "Iris.C59_registry_exact_partial",
    "Iris.C59_registry_plain_masks_partial",
    "Iris.C59_no_excess_access"
   ],
   "note": "Violated by the code: the rights called always granted are part of the write rights, so KEY_READ needs a write rule too (C59_key_read_violated). Proved: exact description of what is granted, equality with the property for masks without these rights, and nothing beyond the rules for all."
  },
  {
   "property": "C60",
   "status": "partial",
   "theorems": [
    "Iris.C60_arguments_partial",
    "Iris.C60_missing",
    "Iris.C60_empty_argument_violated",
    "Iris.C60_other_arguments_violated"
   ],
   "note": "Violated for empty arguments (they get lost), tabs, double quotes, and a backslash at the end of an argument with a space. Proved for all lists of the other arguments; the first argument is replaced by the path of the executable. Arguments are bytes of an encoding where each byte is a character."
  },
  {
   "property": "C61",
   "status": "partial",
   "theorems": [
    "Iris.C61_environment_partial",
    "Iris.C61_no_name_twice_partial",
    "Iris.C61_block_partial",
    "Iris.C61_same_variable_twice_violated",
    "Iris.C61_empty_entry_violated"
   ],
   "note": "Violated if the case of names is ignored, as Windows does (C61_same_variable_twice_violated), and for empty entries (C61_empty_entry_violated). Proved with names compared exactly, and for blocks of non-empty entries."
  },
  {
   "property": "C62",
   "status": "proved",
   "theorems": [
    "Iris.C62_ends",
    "Iris.C62_calls",
    "Iris.C62_protections",
    "Iris.C62_failures"
   ],
   "note": "At most six iterations, every call of CreateProcess has its slots filled, every missing protection was refused, every failure has a cause."
  },
  {
   "property": "C63",
   "status": "proved",
   "theorems": [
    "Iris.C63_trampoline64_lands",
    "Iris.C63_trampoline32_lands",
    "Iris.C63_only_trampoline_written"
   ],
   "note": "x86_64 and 32-bit x86, on a machine that fetches and decodes the bytes; every address, register file and memory."
  },
  {
   "property": "C64",
   "status": "partial",
   "theorems": [
    "Iris.C64_file_name_partial",
    "Iris.C64_created_key_name_partial",
    "Iris.C64_opened_key_name_partial",
    "Iris.C64_other_object_opened_violated"
   ],
   "note": "Violated by the code: the length of the name is cut to 16 bits, so a granted path of more than 32767 UTF-16 units opens one of its prefixes, which no rule covers (C64_other_object_opened_violated). Proved for shorter paths, for files and for keys."
  },
  {
   "property": "C65",
   "status": "partial",
   "theorems": [
    "Iris.C65_message_closes_any_handle_violated",
    "Iris.C65_other_handles_kept_partial"
   ],
   "note": "Violated by the code: a handle value named in a message is wrapped and closed by the broker (C65_message_closes_any_handle_violated). Proved that no other handle but the two of the channel is affected, and that none is leaked."
  },
  {
   "property": "C66",
   "status": "partial",
   "theorems": [
    "Iris.C66_mapping",
    "Iris.C66_rule_reaches_key",
    "Iris.C66_unknown_root_partial",
    "Iris.C66_root_prefix_violated",
    "Iris.C66_injective"
   ],
   "note": "Violated by the code: a name that only begins like a root is accepted (C66_root_prefix_violated). Proved: the mapping of each root, refusal of all names that begin like none, injectivity."
  },
  {
   "property": "C67",
   "status": "proved",
   "theorems": [
    "Iris.C67_open_end_to_end",
    "Iris.C67_no_other_descriptor"
   ],
   "note": "Paths whose message, with the flags, has at most 65536 bytes; with any other the worker stops (C31_returns_iff)."
  },
  {
   "property": "C68",
   "status": "partial",
   "theorems": [
    "Iris.C68_leaves_nothing_open_partial",
    "Iris.C68_violated"
   ],
   "note": "Violated on x86_64, where a granted call leaves one descriptor behind (C68_violated; cause: C25). Proved for 32-bit builds."
  },
  {
   "property": "C69",
   "status": "proved",
   "theorems": [
    "Iris.C69_other_calls"
   ],
   "note": ""
  },
  {
   "property": "C70",
   "status": "proved",
   "theorems": [
    "Iris.C70_no_deadlock",
    "Iris.C70_calls_complete"
   ],
   "note": ""
  },
  {
   "property": "C71",
   "status": "proved",
   "theorems": [
    "Iris.C71_registers_unchanged",
    "Iris.C71_other_signals_ignored",
    "Iris.C71_seccomp_signal_handled"
   ],
   "note": ""
  },
  {
   "property": "C72",
   "status": "partial",
   "theorems": [
    "Iris.C72_channel_partial",
    "Iris.C72_violated"
   ],
   "note": "Violated by the code if the broker has closed standard streams (C72_violated). Proved when it has descriptors 0, 1 and 2."
  },
  {
   "property": "C73",
   "status": "proved",
   "theorems": [
    "Iris.C73_starts"
   ],
   "note": ""
  },
  {
   "property": "C74",
   "status": "proved",
   "theorems": [
    "Iris.C74_creation_succeeds"
   ],
   "note": ""
  },
  {
   "property": "C75",
   "status": "partial",
   "theorems": [
    "Iris.C75_32_bit",
    "Iris.C75_descriptors_partial",
    "Iris.C75_violated"
   ],
   "note": "Violated on x86_64 if the worker attaches two descriptors to its first message (C75_violated). Proved for 32-bit builds and for at most one descriptor."
  },
  {
   "property": "C76",
   "status": "proved",
   "theorems": [
    "Iris.C76_lockdown",
    "Iris.C76_lockdown_succeeds",
    "Iris.C76_no_filter"
   ],
   "note": ""
  },
  {
   "property": "C77",
   "status": "partial",
   "theorems": [
    "Iris.C77_violated",
    "Iris.C77_computed",
    "Iris.C77_enforced_partial"
   ],
   "note": "Violated by the code: if the filter cannot be computed the worker runs without any (C77_violated). Proved otherwise, under the C49 conditions in audit mode, for any rule compiler which keeps the promise Spec.Faithful."
  },
  {
   "property": "C78",
   "status": "partial",
   "theorems": [
    "Iris.C78_rerun_not_trapped_partial",
    "Iris.C78_rerun_not_trapped_i686_partial"
   ],
   "note": "Proved for x86_64 and i686 under the C49 conditions (the low half of the call site is not 0xCAFECAFE, no half placeholder in the filter), which are the ones under which the patched filter is right."
  },
  {
   "property": "C79",
   "status": "partial",
   "theorems": [
    "Iris.C79_redirect",
    "Iris.C79_free",
    "Iris.C79_shared_stream_closed_twice",
    "Iris.C79_violated",
    "Iris.C79_closed_once_partial"
   ],
   "note": "Proved for every history in which each descriptor is given once. A descriptor given for two streams is closed twice (C79_violated)."
  },
  {
   "property": "C80",
   "status": "partial",
   "theorems": [
    "Iris.C80_violated",
    "Iris.C80_no_call_ends_a_process"
   ],
   "note": "Violated by the code: neither Worker nor OSSandboxedProcess has a destructor on Linux (C80_violated), and no C function ends a process (C80_no_call_ends_a_process)."
  },
  {
   "property": "C81",
   "status": "partial",
   "theorems": [
    "Iris.C81_same_data_partial",
    "Iris.C81_violated"
   ],
   "note": "Violated by the code: a NUL in the path panics before the C function is called, whatever the verdict (C81_violated), so any worker can end its broker thread when a C callback is registered. Proved for all other requests."
  },
  {
   "property": "C82",
   "status": "partial",
   "theorems": [
    "Iris.C82_other_options_ignored",
    "Iris.C82_open_by_id_violated",
    "Iris.C82_links_and_deletion_partial"
   ],
   "note": "Violated by the code: all options but two are ignored (C82_other_options_ignored), among them FILE_OPEN_BY_FILE_ID (C82_open_by_id_violated). Proved: links are not followed and deletion on close needs a write rule."
  },
  {
   "property": "C83",
   "status": "proved",
   "theorems": [
    "Iris.C83_audit_and_notifications"
   ],
   "note": ""
  },
  {
   "property": "C84",
   "status": "proved",
   "theorems": [
    "Iris.C84_order_and_repetition",
    "Iris.C84_monotone",
    "Iris.C84_deny_by_default"
   ],
   "note": ""
  },
  {
   "property": "C85",
   "status": "partial",
   "theorems": [
    "Iris.C85_accepted_rule_without_effect_violated",
    "Iris.C85_rule_on_drive_partial"
   ],
   "note": "Violated by the code: a rule on a path that is not on a drive is accepted and has no effect (C85_accepted_rule_without_effect_violated). Proved for all paths on a drive."
  },
  {
   "property": "C86",
   "status": "proved",
   "theorems": [
    "Iris.C86_transcript",
    "Iris.C86_calls_are_the_granted_requests"
   ],
   "note": "The whole trace of a session, for every policy, all messages and every behaviour of the operating system. How names are cut is C64."
  },
  {
   "property": "C87",
   "status": "proved",
   "theorems": [
    "Iris.C87_one_reply_per_request",
    "Iris.C87_answers"
   ],
   "note": "All sessions; and each request is answered whenever the reply can be written and a handle duplicated."
  },
  {
   "property": "C88",
   "status": "proved",
   "theorems": [
    "Iris.C88_only_granted_objects",
    "Iris.C88_announced_handles_exist"
   ],
   "note": "All sessions."
  },
  {
   "property": "C89",
   "status": "proved",
   "theorems": [
    "Iris.C89_request_round_trip",
    "Iris.C89_request_encodes",
    "Iris.C89_reply_round_trip",
    "Iris.C89_policy_round_trip"
   ],
   "note": "Requests with an optional handle, replies, and the policy in the first reply."
  },
  {
   "property": "C90",
   "status": "proved",
   "theorems": [
    "Iris.C90_nothing_after",
    "Iris.C90_nothing_before_initialization"
   ],
   "note": "All sessions."
  },
  {
   "property": "C91",
   "status": "partial",
   "theorems": [
    "Iris.C91_calls_reach_hooks_partial",
    "Iris.C91_far_trampoline_violated",
    "Iris.C91_in_memory_partial"
   ],
   "note": "Violated when free memory is only found more than 4 GiB above the module (C91_far_trampoline_violated: the offset is cut to 32 bits). Proved when the trampolines are within 4 GiB. C91_calls_reach_hooks_partial is about tables of addresses; C91_in_memory_partial about the bytes of memory, with headers, the loader's list, page protections, and entries that must be aligned and not overlap. A run of hook_function that panics is out of scope."
  },
  {
   "property": "C92",
   "status": "partial",
   "theorems": [
    "Iris.C92_create_file_partial",
    "Iris.C92_open_file_partial",
    "Iris.C92_create_file_exact_partial",
    "Iris.C92_open_file_exact_partial",
    "Iris.C92_long_name_violated",
    "Iris.C92_name_replaced_violated"
   ],
   "note": "Violated for names that are not valid UTF-16 (C92_name_replaced_violated: another file is opened) and for names longer than a message (C92_long_name_violated: the program is ended). Proved for all other names, exactly (C92_create_file_exact_partial, C92_open_file_exact_partial): a call whose message has at most 65536 bytes is carried out, any other ends the program. The broker can write to the pipe and duplicate the handle."
  },
  {
   "property": "C93",
   "status": "partial",
   "theorems": [
    "Iris.C93_create_key_partial",
    "Iris.C93_create_key_exact_partial"
   ],
   "note": "As C92, for NtCreateKey with any class, with the exact limit (C93_create_key_exact_partial); NtOpenKey is not hooked by the code."
  },
  {
   "property": "C94",
   "status": "proved",
   "theorems": [
    "Iris.C94_create_file",
    "Iris.C94_open_file",
    "Iris.C94_create_key"
   ],
   "note": "All three hooks, every reply."
  },
  {
   "property": "C95",
   "status": "proved",
   "theorems": [
    "Iris.C95_start",
    "Iris.C95_only_after_greeting"
   ],
   "note": "Every policy built with the API, both base policies."
  },
  {
   "property": "C96",
   "status": "partial",
   "theorems": [
    "Iris.C96_profile_deleted_partial",
    "Iris.C96_profile_left_violated",
    "Iris.C96_own_profile_partial"
   ],
   "note": "Violated when a protection is refused after the profile was created (C96_profile_left_violated). Proved when nothing is refused."
  },
  {
   "property": "C97",
   "status": "partial",
   "theorems": [
    "Iris.C97_inherited_handles_partial",
    "Iris.C97_all_inherited_violated"
   ],
   "note": "Violated when the system refuses the list of handles: the worker is created anyway and inherits everything (C97_all_inherited_violated). Proved when it is not refused."
  },
  {
   "property": "C98",
   "status": "partial",
   "theorems": [
    "Iris.C98_rights",
    "Iris.C98_no_list",
    "Iris.C98_files_partial",
    "Iris.C98_other_directory_violated"
   ],
   "note": "Rights: proved. Files: violated for executables named with slashes or without a directory (C98_other_directory_violated: DLLs in the root of the current drive are changed); proved for paths with backslashes."
  },
  {
   "property": "C99",
   "status": "partial",
   "theorems": [
    "Iris.C99_loadable_partial",
    "Iris.C99_windows_directory_partial",
    "Iris.C99_inherit_only_violated",
    "Iris.C99_listing_reported",
    "Iris.C99_denied_is_passed_over"
   ],
   "note": "Violated for DLLs with entries only to be inherited (C99_inherit_only_violated). Proved for lists without such entries and without denials to packages."
  },
  {
   "property": "C100",
   "status": "partial",
   "theorems": [
    "Iris.C100_joined_partial",
    "Iris.C100_handles",
    "Iris.C100_nothing_left",
    "Iris.C100_interposed_violated"
   ],
   "note": "Proved (C100_joined_partial): if other processes do not use the names of this broker's pipes, the two handles are the ends of one instance, and the broker does not wait for ever. C100_handles (both handles are new, different, and nothing else changes) and C100_nothing_left hold for every behaviour of others. Missing and disproved (C100_interposed_violated): the pipe admits two instances, so a process that creates the second one between CreateNamedPipe and CreateFile and then connects to the first gets both ends: the broker's two handles are not joined."
  },
  {
   "property": "C101",
   "status": "partial",
   "theorems": [
    "Iris.C101_hangs_violated",
    "Iris.C101_denied_violated",
    "Iris.C101_ends_partial"
   ],
   "note": "Proved (C101_ends_partial): if other processes leave the names alone and the system does not itself deny creation, at most one attempt more than there are pipes. Missing and disproved (C101_denied_violated): the code takes ERROR_ACCESS_DENIED to mean the name is taken, so a system that denies creation makes it loop for ever; and another process can make it wait for ever for a client (C101_hangs_violated)."
  },
  {
   "property": "C102",
   "status": "partial",
   "theorems": [
    "Iris.C102_attached_partial",
    "Iris.C102_reserved_name",
    "Iris.C102_other_case_violated"
   ],
   "note": "Proved (C102_attached_partial): a created worker reads from its environment block the value of its end of the pipe whose other end the broker serves; nobody else has that end; remote handles are sent to that process. Required: other processes leave the names of this broker's pipes alone (see C100) and no entry of the configured environment is empty or has the variable's name in any case. C102_reserved_name: the exact name is refused. Missing and disproved (C102_other_case_violated): Windows compares names without case, the check compares with it."
  },
  {
   "property": "C103",
   "status": "partial",
   "theorems": [
    "Iris.C103_nothing_left_partial",
    "Iris.C103_process_left_violated"
   ],
   "note": "Proved (C103_nothing_left_partial): after every failure the handles and their inheritability are as before, except the handle of a process whose number GetProcessId does not give; if the failure is one of arguments, no process was created. Missing and disproved (C103_process_left_violated): when OpenProcess, the thread or GetProcessId fail, the process already created goes on running."
  },
  {
   "property": "C104",
   "status": "proved",
   "theorems": [
    "Iris.C104_streams"
   ],
   "note": "C104_streams, required: the configured handles are handles of the broker, which the type Handle guarantees."
  },
  {
   "property": "C105",
   "status": "partial",
   "theorems": [
    "Iris.C105_handles_partial",
    "Iris.C105_refused_violated"
   ],
   "note": "Proved (C105_handles_partial) if the system does not refuse lists of handles. Missing and disproved (C105_refused_violated): if it does, the creation is tried again without the list and the worker gets every inheritable handle."
  },
  {
   "property": "C106",
   "status": "partial",
   "theorems": [
    "Iris.C106_owned_partial",
    "Iris.C106_closed_once_partial",
    "Iris.C106_clone_violated"
   ],
   "note": "Proved for programs that do not clone (C106_owned_partial, C106_closed_once_partial). Missing and disproved (C106_clone_violated): clone wraps the number DuplicateHandle returns instead of the handle it made, so the clone is no handle to the object, and the handle made is never closed."
  },
  {
   "property": "C107",
   "status": "proved",
   "theorems": [
    "Iris.C107_inheritable"
   ],
   "note": "SetHandleInformation and GetHandleInformation on the broker's handle table."
  },
  {
   "property": "C108",
   "status": "partial",
   "theorems": [
    "Iris.C108_same_data_partial",
    "Iris.C108_no_attributes_violated",
    "Iris.C108_nul_violated"
   ],
   "note": "Proved (C108_same_data_partial) for registry keys and for files with extended attributes, if the path has no NUL and there is memory: same request, same verdict, heap exactly restored. Missing and disproved: a file request without extended attributes allocates a block of size zero, which is undefined behaviour (C108_no_attributes_violated, every policy and state of the heap); a NUL in the path panics and loses the attributes' memory (C108_nul_violated)."
  },
  {
   "property": "C109",
   "status": "proved",
   "theorems": [
    "Iris.C109_call_returns_like_a_call",
    "Iris.C109_open"
   ],
   "note": "Modelled for x86_64 (registers of i686: C50). The signal frame and what the kernel does with it are in the specification."
  },
  {
   "property": "C110",
   "status": "proved",
   "theorems": [
    "Iris.C110_write_xor_execute"
   ],
   "note": "Over the memory of a process byte by byte (Model/WinImage.lean): in every state that is passed through, whatever memory holds and whichever system calls fail, panicking or not. Other threads' own changes are not modelled."
  },
  {
   "property": "C111",
   "status": "partial",
   "theorems": [
    "Iris.C111_protections_kept_partial",
    "Iris.C111_violated"
   ],
   "note": "C111_protections_kept_partial: for loaded modules whose table entries are aligned and do not overlap. C111_violated: an entry spanning two pages gives the second one the protection of the first, for good (VirtualProtect returns the old protection of the first page only)."
  },
  {
   "property": "C112",
   "status": "partial",
   "theorems": [
    "Iris.C112_code_stays_executable_partial",
    "Iris.C112_violated"
   ],
   "note": "C112_code_stays_executable_partial: pages without table entries keep their protection in every state passed through. C112_violated: the page of a table is made PAGE_READWRITE while an entry is overwritten, also if it holds code."
  },
  {
   "property": "C113",
   "status": "proved",
   "theorems": [
    "Iris.C113_hooking_completes"
   ],
   "note": "For processes described as in C91 (in memory). The number of steps needed is finite; hooks' addresses must fit the import tables of 32-bit modules, if there are any."
  },
  {
   "property": "C114",
   "status": "partial",
   "theorems": [
    "Iris.C114_reliable_partial",
    "Iris.C114_end_is_final",
    "Iris.C114_new_channel",
    "Iris.C114_next_can_arrive",
    "Iris.C114_violated"
   ],
   "note": "False for message types which serialize into zero bytes, such as (): recv reports the end of the channel and the message is lost. Proved for all others, which include every message of the broker and the worker (C26_no_empty_message)."
  },
  {
   "property": "C115",
   "status": "partial",
   "theorems": [
    "Iris.C115_record_tells_request_and_verdict",
    "Iris.C115_text_log_tells_all_partial",
    "Iris.C115_warns_iff_not_granted",
    "Iris.C115_callbacks_agree",
    "Iris.C115_violated",
    "Iris.C115_text"
   ],
   "note": "C115_record_tells_request_and_verdict, C115_warns_iff_not_granted and C115_callbacks_agree hold for all requests. C115_text_log_tells_all_partial is for paths without line breaks; with them the full statement is false (C115_violated: a worker confined to nothing forges a line saying that it was granted /etc/shadow)."
  },
  {
   "property": "C116",
   "status": "partial",
   "theorems": [
    "Iris.C116_record_tells_request_and_verdict_partial",
    "Iris.C116_text_log_tells_most_partial",
    "Iris.C116_warns_iff_not_granted",
    "Iris.C116_callbacks_agree",
    "Iris.C116_violated",
    "Iris.C116_violated_by_line_breaks",
    "Iris.C116_text"
   ],
   "note": "C116_warns_iff_not_granted and C116_callbacks_agree hold for all requests. C116_record_tells_request_and_verdict_partial and C116_text_log_tells_most_partial are up to extended attribute bytes and unused options, and without line breaks for the text; the full statement is false (C116_violated, C116_violated_by_line_breaks)."
  },
  {
   "property": "C117",
   "status": "proved",
   "theorems": [
    "Iris.C117_reasons_are_true",
    "Iris.C117_callbacks_get_true_reasons",
    "Iris.C117_sentences_say_one_thing"
   ],
   "note": "C117_reasons_are_true for the verdict, C117_callbacks_get_true_reasons for log callbacks in both modes, C117_sentences_say_one_thing for the absence of ambiguity."
  },
  {
   "property": "C118",
   "status": "partial",
   "theorems": [
    "Iris.C118_file_reasons_are_true",
    "Iris.C118_key_reasons_are_true_partial",
    "Iris.C118_key_rules_are_true_partial",
    "Iris.C118_violated"
   ],
   "note": "Files: C118_file_reasons_are_true in full, for names without two backslashes in a row (as in C58). Keys: C118_key_reasons_are_true_partial for masks without always granted rights; C118_key_rules_are_true_partial says what holds for all masks; the full statement is false (C118_violated: a request for notifications only is said to ask for read-write access)."
  },
  {
   "property": "C119",
   "status": "partial",
   "theorems": [
    "Iris.C119_always_prints",
    "Iris.C119_announces",
    "Iris.C119_print_tells_rules_partial",
    "Iris.C119_print_tells_decisions_partial",
    "Iris.C119_violated",
    "Iris.C119_print_tells_windows_decisions_partial",
    "Iris.C119_locks_violated"
   ],
   "note": "C119_print_tells_decisions_partial on Linux for rules without line breaks (locks included, as they have no effect on Linux), C119_print_tells_windows_decisions_partial on Windows without locks, C119_print_tells_rules_partial says what is determined with locks. The full statements are false: C119_violated, C119_locks_violated."
  },
  {
   "property": "C120",
   "status": "proved",
   "theorems": [
    "Iris.C120_ids",
    "Iris.C120_ids_written",
    "Iris.C120_broker_ids_kept"
   ],
   "note": "C120_ids for every pattern of refusals, C120_ids_written when nothing is refused, C120_broker_ids_kept without a namespace. The kernel's rules for /proc/self/{setgroups,uid_map,gid_map} are modelled after user_namespaces(7)."
  },
  {
   "property": "C121",
   "status": "partial",
   "theorems": [
    "Iris.C121_warnings",
    "Iris.C121_messages_whole",
    "Iris.C121_gives_up_iff_says_so",
    "Iris.C121_said_on_stderr_partial",
    "Iris.C121_reason_lost_violated",
    "Iris.C121_no_stderr_violated",
    "Iris.C121_reason_true",
    "Iris.C121_codes"
   ],
   "note": "C121_warnings, C121_messages_whole and C121_gives_up_iff_says_so hold in full. C121_said_on_stderr_partial: all but the messages about a standard stream that cannot be set up reach the standard error of the broker. The full statement is false: C121_reason_lost_violated, and C121_no_stderr_violated without a standard error."
  },
  {
   "property": "C122",
   "status": "partial",
   "theorems": [
    "Iris.C122_memory_partial",
    "Iris.C122_values_violated",
    "Iris.C122_profile_ids_violated",
    "Iris.C122_violated"
   ],
   "note": "C122_memory_partial: no undefined behaviour, same result as the model of C62, blocks and lists given back, for every behaviour of the system. The full statement is false (C122_violated): values are gone before the list is deleted (C122_values_violated), identifiers of profiles are leaked by every worker in a container (C122_profile_ids_violated)."
  },
  {
   "property": "C123",
   "status": "partial",
   "theorems": [
    "Iris.C123_asks_the_system",
    "Iris.C123_hives_apart",
    "Iris.C123_only_own_hive_partial",
    "Iris.C123_violated"
   ],
   "note": "C123_only_own_hive_partial for rules on the root or below it, C123_hives_apart and C123_asks_the_system in full. Rules that only begin with the name of the root violate it: C123_violated."
  },
  {
   "property": "C124",
   "status": "partial",
   "theorems": [
    "Iris.C124_own_answers",
    "Iris.C124_as_if_in_turn",
    "Iris.C124_hooked_calls",
    "Iris.C124_goes_on_serving",
    "Iris.C124_no_deadlock_partial",
    "Iris.C124_calls_complete_partial",
    "Iris.C124_stuck_for_ever",
    "Iris.C124_no_deadlock_violated"
   ],
   "note": "for any number of threads, interleaving and logger: every hooked call gets what a broker serving all requests one at a time in the order of sending gives (C124_own_answers, C124_as_if_in_turn, C124_hooked_calls; with C124_goes_on_serving the hypotheses of C92-C94 hold for each call). Missing: freedom from deadlock for every logger; it holds for loggers that make no hooked calls (C124_no_deadlock_partial, C124_calls_complete_partial) and is violated by those that do: C124_no_deadlock_violated, C124_stuck_for_ever"
  },
  {
   "property": "C125",
   "status": "partial",
   "theorems": [
    "Iris.C125_call_returns_like_a_call",
    "Iris.C125_served_like_64",
    "Iris.C125_open",
    "Iris.C125_other_calls",
    "Iris.C125_other_signals",
    "Iris.C125_stat64_violated"
   ],
   "note": "for every state of the registers: the call returns as int 0x80 does, with only eax changed (C125_call_returns_like_a_call), calls by path are served like those of x86_64 (C125_served_like_64, so C51, C52, C67 and C68 apply; C125_open is the whole way of open and openat), other calls are reported and get -ENOSYS or are run once (C125_other_calls), other signals change nothing (C125_other_signals). Missing: stat of C libraries (call 195) is not recognised, C125_stat64_violated"
  },
  {
   "property": "C126",
   "status": "partial",
   "theorems": [
    "Iris.C126_no_undefined_behaviour",
    "Iris.C126_program",
    "Iris.C126_given_back_partial",
    "Iris.C126_violated"
   ],
   "note": "blocks of memory with pointers between them, in Rust's order of allocation and drop; undefined behaviour is explicit. For every configuration, memory and result of the system, nothing undefined happens and the run is that of C36 to C44 (C126_no_undefined_behaviour, C126_program). Memory is given back unless all three clone calls fail (C126_given_back_partial); then the boxed parameters are leaked: C126_violated"
  },
  {
   "property": "C127",
   "status": "proved",
   "theorems": [
    "Iris.C127_first_cause",
    "Iris.C127_attached"
   ],
   "note": "the causes of a failure are listed by step in Spec/CreationError.lean; the result is an error exactly if it is the one of the first failing step (C127_first_cause), for open streams, a read on the pipe which does not fail (C44) and a first message without files; with files there is never a worker (C127_attached)"
  },
  {
   "property": "C128",
   "status": "proved",
   "theorems": [
    "Iris.C128_send",
    "Iris.C128_recv",
    "Iris.C128_handle"
   ],
   "note": "reasons listed in Spec/ChannelError.lean, each with its error; equivalences C128_send, C128_recv, C128_handle. The texts of undecodable messages are not modelled, only their bytes"
  },
  {
   "property": "C129",
   "status": "partial",
   "theorems": [
    "Iris.C129_descriptors",
    "Iris.C129_streams_partial",
    "Iris.C129_own_only",
    "Iris.C129_failed_partial",
    "Iris.C129_served_partial",
    "Iris.C129_channel",
    "Iris.C129_alone",
    "Iris.C129_returns"
   ],
   "note": "Model/Creators.lean splits Worker::new in system calls on a shared descriptor table; C129_alone proves that uninterrupted it is workerNew. Invariant over all executions. Partial only in the standard streams (C129_streams_partial), where the code violates C40; accounting of descriptors assumes at most one file attached to the first message, since recv leaks the others"
  },
  {
   "property": "C130",
   "status": "partial",
   "theorems": [
    "Iris.C130_channel",
    "Iris.C130_first_cause",
    "Iris.C130_open_process_violated",
    "Iris.C130_told"
   ],
   "note": "C130_channel and C130_first_cause: the error of winWorkerNew, for all failures. Partial because the code violates the last sentence for one call: when OpenProcess fails the caller is told neither the call nor the code (C130_open_process_violated); C130_told covers the others. The name of a failed AppContainer or attribute call is not given since those are retried without the feature, as in C62"
  },
  {
   "property": "C131",
   "status": "partial",
   "theorems": [
    "Iris.C131_same_permissions",
    "Iris.C131_safe",
    "Iris.C131_freed_partial",
    "Iris.C131_leaks_violated",
    "Iris.C131_grows_violated"
   ],
   "note": "C131_safe holds in full: no double free and no use after free. C131_freed_partial: descriptors are always freed, identifiers unless their length cannot be got. Partial because the code never frees the new lists nor closes the searches (C131_leaks_violated), so that they grow with each worker (C131_grows_violated). The identifier of an AppContainer profile, which is never freed either, is in C122. C131_same_permissions ties the model to that of C98 and C99"
  },
  {
   "property": "C132",
   "status": "partial",
   "theorems": [
    "Iris.C132_handles_partial",
    "Iris.C132_private_partial",
    "Iris.C132_own_only",
    "Iris.C132_failed_partial",
    "Iris.C132_served",
    "Iris.C132_channel_partial",
    "Iris.C132_numbers",
    "Iris.C132_profiles",
    "Iris.C132_container",
    "Iris.C132_returns",
    "Iris.C132_alone",
    "Iris.C132_mixed_violated",
    "Iris.C132_leak_violated"
   ],
   "note": "Model/WinCreators.lean splits Worker::new on Windows in system calls on shared handles, pipes and profiles; C132_alone proves that uninterrupted it is winWorkerNew. Invariant over all executions. Partial where the code violates the property: a worker created after the system has refused the list of handles inherits the ends other creations have marked inheritable (C132_mixed_violated), and a failing GetProcessId leaves the handle of the process open (C132_leak_violated)"
  },
  {
   "property": "C133",
   "status": "partial",
   "theorems": [
    "Iris.C133_programs",
    "Iris.C133_streams_partial",
    "Iris.C133_served",
    "Iris.C133_own_socket",
    "Iris.C133_opened",
    "Iris.C133_sent_ilp32",
    "Iris.C133_sent_partial",
    "Iris.C133_session_ilp32",
    "Iris.C133_session_partial",
    "Iris.C133_no_interference_ilp32",
    "Iris.C133_no_interference_partial",
    "Iris.C133_own_only",
    "Iris.C133_apart_partial",
    "Iris.C133_closed_partial",
    "Iris.C133_one_partial",
    "Iris.C133_violated"
   ],
   "note": "Model/WholeBroker.lean composes Model/Creators.lean (worker creation, one system call at a time) and Model/Concurrent.lean (service threads) on one descriptor table; every execution projects on one of each, so what was proved of them holds of the whole, and ownership of descriptors is an invariant over all executions. Partial where the code violates the property: on x86_64 the file of descriptor 0 goes with each file sent, and if descriptor 0 is closed that is the broker's end of another worker's channel (C133_violated); messages with several files leave descriptors open (C75_violated); standard streams as in C40"
  },
  {
   "property": "C134",
   "status": "partial",
   "theorems": [
    "Iris.C134_transcript_partial",
    "Iris.C134_own_pipe_partial",
    "Iris.C134_given_partial",
    "Iris.C134_closes_own_partial",
    "Iris.C134_kept_partial",
    "Iris.C134_closed_partial",
    "Iris.C134_calls",
    "Iris.C134_steps",
    "Iris.C134_alone",
    "Iris.C134_alone_first",
    "Iris.C134_violated"
   ],
   "note": "Model/WinLoops.lean runs the threads of ipc_loop.rs one system call at a time on the shared handles; C134_calls, C134_steps, C134_alone, C134_alone_first hold without condition, the others as long as no worker sends a message that names a handle. Partial because the code violates the full statement: recv believes the handle value a worker writes in its message and drops it, which closes any handle of the broker, such as the pipe of another worker, and its value may then become that of a third worker's pipe (C134_violated)"
  },
  {
   "property": "C135",
   "status": "partial",
   "theorems": [
    "Iris.C135_hooks",
    "Iris.C135_hooked",
    "Iris.C135_calls_partial",
    "Iris.C135_called",
    "Iris.C135_violated",
    "Iris.C135_violated_overwrites",
    "Iris.C135_profile_x64",
    "Iris.C135_found",
    "Iris.C135_supported"
   ],
   "note": "Model/WinCalls.lean: calls down to registers and stack slots, for arbitrary arguments and stacks. C135_hooks: the hooks match the functions they replace on both machines; C135_calls_partial: so do the declarations used for calls, except that CreateAppContainerProfile and DeleteAppContainerProfile are declared extern \"C\" though they are extern \"system\" (STDAPI): on 32-bit machines each call leaves the stack pointer 24 (4) bytes too high (C135_violated) and the next call overwrites the caller's frame (C135_violated_overwrites)"
  },
  {
   "property": "C136",
   "status": "partial",
   "theorems": [
    "Iris.C136_opened_partial",
    "Iris.C136_changed_partial",
    "Iris.C136_no_links_made_partial",
    "Iris.C136_finds",
    "Iris.C136_finds_directory",
    "Iris.C136_nofollow_refused",
    "Iris.C136_violated",
    "Iris.C136_violated_creates"
   ],
   "note": "Model/Files.lean: trees of directories, files and symbolic links, the kernel's path resolution (up to 40 links) and open(2), driven by the actions of a whole session (Model/Broker.lean) with arbitrary refusals and writes in between. C136_opened_partial, C136_changed_partial, C136_no_links_made_partial: the property, when no symbolic link is on the way to what the rules allow; the worker cannot make one, so this stays true. C136_finds: a file is found by its path. C136_violated, C136_violated_creates: with a link, the broker follows it and opens or creates a file no rule names; C136_nofollow_refused: O_NOFOLLOW is refused, so the worker cannot even ask for links not to be followed."
  },
  {
   "property": "C137",
   "status": "partial",
   "theorems": [
    "Iris.C137_files_partial",
    "Iris.C137_reached",
    "Iris.C137_nothing_else",
    "Iris.C137_violated_told",
    "Iris.C137_violated_message",
    "Iris.C137_violated_signal",
    "Iris.C137_violated"
   ],
   "note": "Model/Jail.lean: what system calls can do outside of the process, pessimistically (a call which is not described may do anything), for a worker which makes any calls under the filter it loaded and talks to its broker. The filter is the one the broker computed and the worker received and loaded (composes C77, C46, C28 and C136). C137_files_partial: files, when no symbolic link is in the way; C137_reached: the complete list of ways to get at something else; C137_nothing_else. The full statement is false: every locked down worker is told about every path by newfstatat (C137_violated_told), can send datagrams to every named socket (C137_violated_message) and arrange signals by fcntl (C137_violated_signal); C137_violated is a concrete case."
  },
  {
   "property": "C138",
   "status": "partial",
   "theorems": [
    "Iris.C138_opened_partial",
    "Iris.C138_changed_partial",
    "Iris.C138_no_links_made_partial",
    "Iris.C138_finds",
    "Iris.C138_violated_junction",
    "Iris.C138_violated_by_id",
    "Iris.C138_violated_makes_link"
   ],
   "note": "Model/WinFiles.lean: the kernel's side of NtCreateFile (resolution of names with reparse points and without regard to case, dispositions, directories, identifiers), and what a worker can do with handles (write, delete, set a reparse point), run on the actions of a whole session. C138_opened_partial, C138_changed_partial and C138_no_links_made_partial: when no reparse point is strictly on the way, the worker is not let make one, and its requests are paths which are not too long and not identifiers. C138_finds: what a path names is what is opened, a reparse point in the last place included. The full statement is false: a junction on the way is followed although FILE_OPEN_REPARSE_POINT is passed (C138_violated_junction), a file can be opened by an identifier (C138_violated_by_id), and a worker which may write to a directory and is let set reparse points makes its own way out (C138_violated_makes_link)."
  },
  {
   "property": "C139",
   "status": "partial",
   "theorems": [
    "Iris.C139_served",
    "Iris.C139_calls",
    "Iris.C139_programs_partial",
    "Iris.C139_own_pipe_partial",
    "Iris.C139_transcript_partial",
    "Iris.C139_given_partial",
    "Iris.C139_own_only_partial",
    "Iris.C139_closed_partial",
    "Iris.C139_kept_partial",
    "Iris.C139_failed_partial",
    "Iris.C139_violated"
   ],
   "note": "Model/WholeWin.lean: the calls of Worker::new (the step functions of C132) and the service threads they leave behind (those of C134) on one handle table, in any order. C139_served and C139_calls hold whatever workers send. The others (C139_programs_partial, C139_own_pipe_partial, C139_transcript_partial, C139_given_partial, C139_own_only_partial, C139_closed_partial, C139_kept_partial, C139_failed_partial) need that no worker names a handle in a message, as the broker then closes its own handle of that value. The full statement is false: a worker has the pipe of another one closed in this way, and the thread of the latter goes on with the pipe of a worker created since, for which it opens a file that this worker's policy does not grant (C139_violated)."
  },
  {
   "property": "C140",
   "status": "partial",
   "theorems": [
    "Iris.C140_opened_partial",
    "Iris.C140_opened_ilp32_partial",
    "Iris.C140_changes_partial",
    "Iris.C140_changes_ilp32_partial",
    "Iris.C140_changed_partial",
    "Iris.C140_no_links_made_partial",
    "Iris.C140_left_alone_partial",
    "Iris.C140_violated",
    "Iris.C140_violated_link"
   ],
   "note": "Model/ManyFiles.lean: one tree of files (that of C136) shared by all workers of a whole broker process (that of C133), in any order. C140_opened_partial, C140_changes_partial, C140_changed_partial, C140_no_links_made_partial and C140_left_alone_partial hold when no symbolic link is in the way, up to the files descriptor 0 of the broker stands for (stray), which go with each file on x86_64; C140_opened_ilp32_partial and C140_changes_ilp32_partial show that nothing is stray on 32-bit targets. The full statement is false: a worker gets the standard input of the broker (C140_violated) or what a link leads to (C140_violated_link)."
  },
  {
   "property": "C141",
   "status": "partial",
   "theorems": [
    "Iris.C141_opened_partial",
    "Iris.C141_changed_partial",
    "Iris.C141_no_links_made_partial",
    "Iris.C141_finds",
    "Iris.C141_violated_link",
    "Iris.C141_violated_view",
    "Iris.C141_violated_rename"
   ],
   "note": "Model/WinKeys.lean: keys and links, the kernel's side of NtCreateKey and NtOpenKey, and what a worker does with its handles, run on the actions of a whole session. C141_opened_partial, C141_changed_partial and C141_no_links_made_partial hold when no link is in the way, the system leads no access elsewhere (WOW64) and lets rename no key, and names have less than 32768 units; C141_finds says that the key named is the one opened. The full statement is false: a link is followed, also in the last place (C141_violated_link), KEY_WOW64_32KEY is accepted and can lead to another key (C141_violated_view), and a key can be renamed by who may write to it, which changes the key above (C141_violated_rename)."
  },
  {
   "property": "C142",
   "status": "partial",
   "theorems": [
    "Iris.C142_opened_partial",
    "Iris.C142_changes_partial",
    "Iris.C142_changed_partial",
    "Iris.C142_left_alone_partial",
    "Iris.C142_no_links_made_partial",
    "Iris.C142_keys_opened_partial",
    "Iris.C142_keys_changes_partial",
    "Iris.C142_keys_changed_partial",
    "Iris.C142_keys_left_alone_partial",
    "Iris.C142_keys_no_links_made_partial",
    "Iris.C142_violated_other_worker"
   ],
   "note": "Model/ManyWin.lean: the files of C138 and the registry of C141 shared by all workers of a whole broker process (that of C139), in any order. For files, C142_opened_partial, C142_changes_partial, C142_changed_partial, C142_left_alone_partial and C142_no_links_made_partial hold when no reparse point is in the way at first, workers are not let make one, and name files by paths of less than 32768 units and not by identifiers; for keys, C142_keys_opened_partial and the four others hold when no link is in the way, the system leads no access elsewhere and lets rename no key, and names are as short. In a build without debug assertions, as C139. The full statement is false: a worker that may write makes a junction, through which another, which may only read, is given a file its rules do not name (C142_violated_other_worker)."
  },
  {
   "property": "C143",
   "status": "partial",
   "theorems": [
    "Iris.C143_linux_table",
    "Iris.C143_windows_table",
    "Iris.C143_registry_violated",
    "Iris.C143_registry_partial"
   ],
   "note": "Tables copied from the tests. Linux and Windows files hold in full; registry: C143_registry_violated (a key with only a read rule cannot be opened by NtCreateKey at all, since READ_CONTROL and creation need the write rule; the test that says otherwise is commented out), C143_registry_partial says exactly what is granted. The decisions of unix_file_path_policy_decision.rs are computed on the model as examples."
  },
  {
   "property": "C144",
   "status": "partial",
   "theorems": [
    "Iris.C144_budget",
    "Iris.C144_total",
    "Iris.C144_serving",
    "Iris.C144_idle",
    "Iris.C144_over_ilp32",
    "Iris.C144_over_partial",
    "Iris.C144_creates",
    "Iris.C144_answers",
    "Iris.C144_violated"
   ],
   "note": "The bounds hold in full, without any hypothesis on messages (C144_idle strengthens C133_one_partial). C144_violated: on x86_64 the second file attached to a message stays open when the worker is over (recv has room for two); C144_over_partial says never more than that one, C144_over_ilp32 says none on 32-bit targets."
  },
  {
   "property": "C145",
   "status": "partial",
   "theorems": [
    "Iris.C145_budget",
    "Iris.C145_total",
    "Iris.C145_idle",
    "Iris.C145_failed_partial",
    "Iris.C145_answers",
    "Iris.C145_violated"
   ],
   "note": "The bounds hold in full, without any hypothesis on messages (C145_idle and C145_failed_partial drop the hypothesis NoneNamed of C139_closed_partial and C139_failed_partial). C145_violated: when GetProcessId fails, the handle of the process created stays open; C145_failed_partial says only then, and only that one. How long a creation takes is C132_returns."
  },
  {
   "property": "C146",
   "status": "partial",
   "theorems": [
    "Iris.C146_invisible_partial",
    "Iris.C146_refused",
    "Iris.C146_where",
    "Iris.C146_violated",
    "Iris.C146_violated_removed"
   ],
   "note": "C146_invisible_partial is a simulation between the confined program and the same program without sandbox, over whole runs, for open and openat of any path but the empty one, and stat and chdir of absolute paths. C146_violated: open of the empty path opens the working directory instead of failing; C146_violated_removed: in a working directory which was removed a relative path is taken from the root directory. Relative paths for stat and chdir are refused (C52_others_refused); access passes its mode as open flags (C51)."
  },
  {
   "property": "C147",
   "status": "partial",
   "theorems": [
    "Iris.C147_invisible_partial",
    "Iris.C147_refused",
    "Iris.C147_which",
    "Iris.C147_violated",
    "Iris.C147_violated_overwrites"
   ],
   "note": "C147_invisible_partial is a simulation between the confined program and the same program without sandbox, over whole runs, for calls without a root directory and extended attributes (others are refused, C94) and with normal file attributes (others are dropped, C92), whose path does not lead to a reparse point unless the program says that it is not to be followed. C147_violated: the broker always adds FILE_OPEN_REPARSE_POINT, so that a program which opens a link gets the link itself and not the file it leads to, although the rules allow both; C147_violated_overwrites: a program which overwrites a link destroys it. IO_STATUS_BLOCK.Status, which the hooks never write, is not part of what is compared."
  },
  {
   "property": "C148",
   "status": "partial",
   "theorems": [
    "Iris.C148_invisible_partial",
    "Iris.C148_refused",
    "Iris.C148_all_or_nothing",
    "Iris.C148_violated"
   ],
   "note": "C148_invisible_partial is a simulation between the confined program and the same program without sandbox, over whole runs, for calls without a root directory and title index (others are refused, C94), for keys the program may write to, and read if the mask has a right that neither reads nor writes (C59). C148_all_or_nothing and C148_refused hold for all calls. C148_violated: a program which may read a key that exists cannot open it with NtCreateKey, since the worker always asks the broker to create."
  },
  {
   "property": "C149",
   "status": "partial",
   "theorems": [
    "Iris.C149_number",
    "Iris.C149_adds",
    "Iris.C149_waited",
    "Iris.C149_violated_stays",
    "Iris.C149_violated_piles_up",
    "Iris.C149_violated_runs_on",
    "Iris.C149_violated"
   ],
   "note": "Model/Children.lean: the children of the broker as the kernel keeps them, with clone, execve, exit and waitpid. C149_number, C149_adds and C149_waited hold without exception of workers whose program was started. Partial because failed creations do leave processes: clone is called without SIGCHLD, so a process which could not execute its program stays until the broker ends, unseen by waitpid without __WALL even if SIGCHLD is ignored (C149_violated_stays), one for each such call (C149_violated_piles_up); a program which was started and whose worker creation then fails goes on running (C149_violated_runs_on)."
  },
  {
   "property": "C150",
   "status": "partial",
   "theorems": [
    "Iris.C150_violated_channel",
    "Iris.C150_violated_new",
    "Iris.C150_received_partial",
    "Iris.C150_asked",
    "Iris.C150_pipe_partial",
    "Iris.C150_violated"
   ],
   "note": "Over the executions of Model/WholeBroker.lean; C150's notion of being passed on is that of closeOnExec (passedOn_iff). Violated in every execution: the channel is made by socketpair without SOCK_CLOEXEC, and the broker's end is never marked, so at all times every program executed gets the broker's end of the channel of every worker being served (C150_violated_channel); whatever a creation opens is passed on at first (C150_violated_new); a file opened for a worker is unless the worker asked for O_CLOEXEC (C150_asked). What holds: what workers send (C150_received_partial), and the write end of the pipe once it is marked (C150_pipe_partial)."
  },
  {
   "property": "C151",
   "status": "partial",
   "theorems": [
    "Iris.C151_violated",
    "Iris.C151_opened",
    "Iris.C151_end_partial",
    "Iris.C151_one_partial",
    "Iris.C151_returned"
   ],
   "note": "Over the executions of Model/WinCreators.lean. Violated while a worker is being created: its end of the channel is inheritable from SetHandleInformation until it is closed after CreateProcess (C151_violated). What holds: a handle is not inheritable when a creation opens it (C151_opened); of the handles of a creation at most one is ever inheritable (C151_one_partial), which is the worker's end of its channel (C151_end_partial); and none of those it leaves open when it has succeeded (C151_returned)."
  }
 ]
}