{
 "claims": [
  {
   "property": "C01",
   "status": "partial",
   "theorems": [
    "Verif.MsgQueue.C01_log_shows_newest_partial"
   ],
   "note": "all histories except a message of exactly the ring size"
  },
  {
   "property": "C02",
   "status": "partial",
   "theorems": [
    "Verif.MsgQueue.C02_log_push_safe_partial",
    "Verif.MsgQueue.C02_full_ring_message_hangs",
    "Verif.MsgQueue.C02_hang_at_real_size"
   ],
   "note": "false of the code for a message of exactly the ring size (proved), true otherwise"
  },
  {
   "property": "C03",
   "status": "proved",
   "theorems": [
    "Verif.MsgQueue.C03_nothing_dropped_while_room"
   ],
   "note": ""
  },
  {
   "property": "C04",
   "status": "proved",
   "theorems": [
    "Verif.InsnQueue.C04_queue_round_trip",
    "Verif.InsnQueue.C04_queue_round_trip_in_process"
   ],
   "note": "Every sequence of accepted print/write requests is decoded by the tool to exactly those requests in order."
  },
  {
   "property": "C05",
   "status": "proved",
   "theorems": [
    "Verif.InsnQueue.C05_queue_overflow_refused",
    "Verif.InsnQueue.C05_queue_overflow_history"
   ],
   "note": "A request that does not fit leaves the queue as it was and records EINSNQ; for all histories."
  },
  {
   "property": "C06",
   "status": "proved",
   "theorems": [
    "Verif.InsnQueue.C06_crash_never_mixes",
    "Verif.Runtime.C06_nonempty_queue_refused"
   ],
   "note": "For all crash points of the tool, at byte granularity; a process left with a non-empty queue refuses requests with EINSNQ."
  },
  {
   "property": "C07",
   "status": "partial",
   "theorems": [
    "Verif.InsnQueue.C07_failed_write_reported_partial",
    "Verif.InsnQueue.C07_first_write_failing_reads_outside",
    "Verif.InsnQueue.C07_failed_write_reported_as_success",
    "Verif.InsnQueue.C07_failed_write_memory_partial",
    "Verif.InsnQueue.C07_middle_write_reported_partial"
   ],
   "note": "False in general: the interpreter moves backwards after a failed write and may report success (negation proved with a six-write witness; C07_first_write_failing_reads_outside shows in general that a failing first write makes it read outside of the queue). The partial theorems cover the failing last write, and a failing write anywhere whose predecessor is a write that fills its slot and ends in a byte that is no instruction type."
  },
  {
   "property": "C08",
   "status": "proved",
   "theorems": [
    "Verif.InsnQueue.C08_newer_queue_never_executed"
   ],
   "note": ""
  },
  {
   "property": "C09",
   "status": "proved",
   "theorems": [
    "Verif.Ptrace.C09_write_exact",
    "Verif.Ptrace.C09_write_bytes",
    "Verif.Ptrace.C09_failure_reported"
   ],
   "note": "write_bytes_ptrace with an arbitrary failing request (a failing POKE may have written some bytes of its word); addresses do not wrap."
  },
  {
   "property": "C10",
   "status": "partial",
   "theorems": [
    "Verif.Ptrace.C10_read_string_partial",
    "Verif.Ptrace.C10_read_string_allocated_partial",
    "Verif.Ptrace.C10_allocated_too_long_unterminated",
    "Verif.Ptrace.C10_string_at_mapping_end_fails"
   ],
   "note": "Right whenever the words covering the string are readable. False as stated: a string whose last word crosses the end of the readable memory cannot be read, and read_string_allocated leaves the buffer unterminated when the string does not fit (both proved)."
  },
  {
   "property": "C11",
   "status": "partial",
   "theorems": [
    "Verif.Ptrace.C11_bulk_partial",
    "Verif.Ptrace.C11_split_transfer_lost",
    "Verif.Ptrace.C11_split_transfer_hangs"
   ],
   "note": "Holds if the kernel transfers all or nothing. False for split transfers: the iovecs are not advanced, so a transfer split in halves is reported complete without its second half, and others never end (proved)."
  },
  {
   "property": "C12",
   "status": "proved",
   "theorems": [
    "Verif.Ptrace.C12_stack_below_red_zone"
   ],
   "note": "The register computation of run_and_redirect for both architectures."
  },
  {
   "property": "C13",
   "status": "proved",
   "theorems": [
    "Verif.Metadata.C13_roundtrip",
    "Verif.Metadata.C13_extract_succeeds"
   ],
   "note": "create_patch_metadata_file, extract_ulp_from_so_to_mem and parse_metadata_from_mem, for allocations that succeed; whatever follows in the buffer. The dependency and reference lists are those the packer holds (its description parser prepends)."
  },
  {
   "property": "C14",
   "status": "proved",
   "theorems": [
    "Verif.Metadata.C14_revert_roundtrip"
   ],
   "note": "Same, for write_reverse_patch."
  },
  {
   "property": "C15",
   "status": "partial",
   "theorems": [
    "Verif.Metadata.C15_parser_safe_partial",
    "Verif.Metadata.C15_length_ff_overflows"
   ],
   "note": "Safe for every buffer without four consecutive 0xFF bytes and every pattern of failing allocations. False in general: a length field of 0xFFFFFFFF overflows the allocation size to 0 and the rest of the metadata is copied there (proved for all such metadata)."
  },
  {
   "property": "C16",
   "status": "partial",
   "theorems": [
    "Verif.Metadata.C16_accepted_is_complete_partial",
    "Verif.Metadata.C16_cut_apply_rejected_partial",
    "Verif.Metadata.C16_cut_in_process_accepted",
    "Verif.Metadata.C16_cut_revert_accepted"
   ],
   "note": "Every proper prefix of apply metadata is rejected when parsed with its own size (the trigger tool). False in the process, where zeros follow, and for revert metadata with names whose length is a multiple of 256 (both proved)."
  },
  {
   "property": "C17",
   "status": "proved",
   "theorems": [
    "Verif.Metadata.C17_gdb_same_metadata"
   ],
   "note": "inject_lp_path against extract_ulp_from_so_to_mem for the same path string; the trigger tool additionally resolves the path with realpath, which is not modelled."
  },
  {
   "property": "C18",
   "status": "proved",
   "theorems": [
    "Verif.Runtime.C18_calls_reach_newest"
   ],
   "note": "any history from a fresh process; requires that no internal error is recorded at the end (see C22, C25 for what happens then)"
  },
  {
   "property": "C19",
   "status": "proved",
   "theorems": [
    "Verif.Runtime.C19_revert_undoes_exactly",
    "Verif.Runtime.C19_apply_then_revert",
    "Verif.Runtime.C19_revert_accepted"
   ],
   "note": "in states without recorded internal error"
  },
  {
   "property": "C20",
   "status": "proved",
   "theorems": [
    "Verif.Runtime.C20_applied_is_a_set",
    "Verif.Runtime.C20_check_exact",
    "Verif.Runtime.C20_reapply_refused"
   ],
   "note": "check is exact while no internal error is recorded"
  },
  {
   "property": "C21",
   "status": "proved",
   "theorems": [
    "Verif.Runtime.C21_dependencies_satisfied",
    "Verif.Runtime.C21_missing_dependency_refused",
    "Verif.Runtime.C21_depended_on_not_reverted"
   ],
   "note": ""
  },
  {
   "property": "C22",
   "status": "partial",
   "theorems": [
    "Verif.Runtime.C22_internal_error_freezes_partial",
    "Verif.Runtime.C22_libpulp_refuses",
    "Verif.Runtime.C22_leftover_queue_executed",
    "Verif.Runtime.C22_leftover_executed"
   ],
   "note": "The claim holds when the queue is empty. It is false otherwise, proved in general: whatever writes an earlier request left in the queue are made with the next request, which is answered with the error (C22_leftover_executed)."
  },
  {
   "property": "C23",
   "status": "proved",
   "theorems": [
    "Verif.Runtime.C23_disable_enable",
    "Verif.Runtime.C23_toggle_only_blocks"
   ],
   "note": ""
  },
  {
   "property": "C24",
   "status": "proved",
   "theorems": [
    "Verif.Runtime.C24_busy_untouched",
    "Verif.Runtime.C24_retry_same"
   ],
   "note": ""
  },
  {
   "property": "C25",
   "status": "partial",
   "theorems": [
    "Verif.Runtime.C25_refused_without_effect_partial",
    "Verif.Runtime.C25_refused_patch_redirects",
    "Verif.Runtime.C25_unreadable_refused",
    "Verif.Runtime.C25_refused_keeps_first",
    "Verif.Runtime.C25_refused_keeps_functions",
    "Verif.Runtime.C25_refused_keeps_all"
   ],
   "note": "False for the four errors found while units are being applied (ENOPATCHABLE, ENONEWFUNC, ENOADDRESS, EUNKNOWN): proved in general, for every process without an error and every livepatch refused with one of them, that the memory is that of a process in which the first functions, or all functions and the first references, have been applied (C25_refused_keeps_*). True for all other errors (C25_refused_without_effect_partial)."
  },
  {
   "property": "C26",
   "status": "partial",
   "theorems": [
    "Verif.BuildId.C26_check_build_id_partial",
    "Verif.BuildId.C26_check_build_id_iff",
    "Verif.BuildId.C26_accepts_wrong_build_id",
    "Verif.BuildId.C26_refuses_right_build_id"
   ],
   "note": "False of the code: the sense of memcmp is inverted (lib/ulp.c:1007). Proved: the exact decision of check_build_id, that any same-length different build id of any library makes it accept, and that it refuses when only the right one is loaded. The partial theorem keeps what is left (some library has a build id of that length)."
  },
  {
   "property": "C27",
   "status": "partial",
   "theorems": [
    "Verif.BuildId.C27_check_patch_sanity_partial",
    "Verif.BuildId.C27_functions_must_match",
    "Verif.BuildId.C27_long_build_id_prefix_only",
    "Verif.BuildId.C27_short_build_id_ub"
   ],
   "note": "Proved as iff for the three results with 20-byte build ids. For longer ones only the first 20 bytes are compared, for shorter ones memcmp reads past the buffer: both proved."
  },
  {
   "property": "C28",
   "status": "partial",
   "theorems": [
    "Verif.Runtime.C28_revert_all_partial",
    "Verif.Runtime.C28_revert_all_hangs"
   ],
   "note": "true when no patch of another library depends on this one's; otherwise revert-all never returns (proved for every such reachable state)"
  },
  {
   "property": "C29",
   "status": "proved",
   "theorems": [
    "Verif.Runtime.C29_counter_never_decreases",
    "Verif.Runtime.C29_counter_counts",
    "Verif.Runtime.C29_largest_in_force"
   ],
   "note": ""
  },
  {
   "property": "C30",
   "status": "proved",
   "theorems": [
    "Verif.Runtime.C30_only_pads_and_references"
   ],
   "note": "any history, including those with refused requests and internal errors; functions and references of refused patches count as named"
  },
  {
   "property": "C31",
   "status": "partial",
   "theorems": [
    "Verif.X86.C31_non_patchable_refused_partial",
    "Verif.X86.C31_foreign_jump_accepted",
    "Verif.X86.C31_foreign_jump_destroyed",
    "Verif.X86.C31_foreign_jump_lost"
   ],
   "note": "x86-64. False for functions that begin with a short jump of their own (negation proved in general: every such function is accepted, and patching and unpatching it loses its jump and the bytes in front of it); true otherwise."
  },
  {
   "property": "C32",
   "status": "proved",
   "theorems": [
    "Verif.X86.C32_entry_redirects",
    "Verif.X86.C32_disabled_falls_through"
   ],
   "note": "Against a small-step semantics of the five instructions in entry pads."
  },
  {
   "property": "C33",
   "status": "proved",
   "theorems": [
    "Verif.AsUnsafe.C33_proceeds_only_when_idle",
    "Verif.AsUnsafe.C33_others_outside_while_served",
    "Verif.AsUnsafe.C33_flag_counts_calls",
    "Verif.AsUnsafe.C33_busy_only_when_inside",
    "Verif.AsUnsafe.C33_broken_when_not_stopped",
    "Verif.AsUnsafe.C33_counter_off_always",
    "Verif.AsUnsafe.C33_broken_always",
    "Verif.AsUnsafe.C33_refused_always"
   ],
   "note": "Invariant over all executions of a transition system with any number of threads, nested calls and loader locks, threads stopped during a request (as the trigger tool does). C33_broken_when_not_stopped shows that this premise is needed. Calls made before the real functions are resolved are not modelled. C33_counter_off_always and C33_broken_always show in general that without stopping the other threads the counter gets too low by any amount and requests then proceed inside that many calls; C33_refused_always that idle processes are refused with EAGAIN from then on."
  },
  {
   "property": "C34",
   "status": "proved",
   "theorems": [
    "Verif.PcQueue.C34_fifo",
    "Verif.PcQueue.C34_complete",
    "Verif.PcQueue.C34_in_bounds",
    "Verif.PcQueue.C34_no_overwrite",
    "Verif.PcQueue.C34_no_deadlock"
   ],
   "note": "Invariant over all interleavings of one producer and one consumer, each semaphore operation and memory access a step, any capacity >= 1 and any element type; sequentially consistent memory. A sem_wait that fails (EINTR) is not a step: enqueue then returns an error without storing."
  },
  {
   "property": "C35",
   "status": "partial",
   "theorems": [
    "Verif.Hijack.C35_success",
    "Verif.Hijack.C35_success_all_partial",
    "Verif.Hijack.C35_thread_escapes",
    "Verif.Hijack.C35_failure_partial",
    "Verif.Hijack.C35_wait_failure_leaves_attached",
    "Verif.Hijack.C35_getregs_failure_leaves_attached",
    "Verif.Hijack.C35_restore",
    "Verif.Hijack.C35_round_trip",
    "Verif.Hijack.C35_flag",
    "Verif.Hijack.C35_thread_escapes_always"
   ],
   "note": "Transition system of the tool against a process whose threads run, start and end. Success: proved that all threads are attached if none ends meanwhile; a thread that starts another one and ends behind the listing escapes (execution given). Failure: proved that nothing stays attached, except in two cases shown false of the code: waitpid failing in attach(), and the unchecked detach after a failing get_regs. Restoring: proved in full. C35_thread_escapes_always shows for any process with two or more threads how one escapes when threads start others and end meanwhile."
  },
  {
   "property": "C36",
   "status": "proved",
   "theorems": [
    "Verif.Trigger.C36_attempts",
    "Verif.Trigger.C36_result",
    "Verif.Trigger.C36_events",
    "Verif.Trigger.C36_restore_failure_unreported"
   ],
   "note": "All retry counts and all behaviours of the process. Also shown: a failing release is not reported when the patch was applied."
  },
  {
   "property": "C37",
   "status": "partial",
   "theorems": [
    "Verif.Trigger.C37_file_counters",
    "Verif.Trigger.C37_file_ret",
    "Verif.Trigger.C37_file_exit_status_partial",
    "Verif.Trigger.C37_unknown_error_exits_zero",
    "Verif.Trigger.C37_wildcard_exits_zero",
    "Verif.Trigger.C37_wildcard_counters_partial"
   ],
   "note": "Holds for counters with a livepatch file, and for the exit status if some error code is not a multiple of 256. False otherwise: EUNKNOWN (256) becomes exit status 0, and with a wildcard the exit status is always 0."
  },
  {
   "property": "C38",
   "status": "proved",
   "theorems": [
    "Verif.Text.C38_version_round_trip",
    "Verif.Text.C38_version_text",
    "Verif.Text.C38_version_order"
   ],
   "note": ""
  },
  {
   "property": "C39",
   "status": "proved",
   "theorems": [
    "Verif.Text.C39_buildid_round_trip",
    "Verif.Text.C39_buildid_print_injective",
    "Verif.Text.C39_buildid_fits"
   ],
   "note": ""
  },
  {
   "property": "C40",
   "status": "proved",
   "theorems": [
    "Verif.Text.C40_basename",
    "Verif.Text.C40_basename_unique"
   ],
   "note": ""
  },
  {
   "property": "C41",
   "status": "partial",
   "theorems": [
    "Verif.Text.C41_own_message_partial",
    "Verif.Text.C41_last_messages_wrong"
   ],
   "note": "true for EUNKNOWN..EDLOPEN, false for ENOLIBDL and ENOLIBC (missing comma in the table, proved)"
  },
  {
   "property": "C42",
   "status": "partial",
   "theorems": [
    "Verif.Text.C42_unused_first_candidate_partial",
    "Verif.Text.C42_returned_name_unused_partial",
    "Verif.Text.C42_conflict_never_ends",
    "Verif.Text.C42_unreadable_file_reused"
   ],
   "note": "true if the first candidate is unused; false otherwise: after one conflict the function never returns, and unreadable files count as unused (proved)"
  },
  {
   "property": "C43",
   "status": "proved",
   "theorems": [
    "Verif.Md4.C43_md4_is_rfc1320",
    "Verif.Md4.C43_md4_unique"
   ],
   "note": "for inputs whose padded length fits 64 bits; memory allocation is assumed to succeed"
  },
  {
   "property": "C44",
   "status": "proved",
   "theorems": [
    "Verif.Post.C44_frame",
    "Verif.Post.C44_idempotent",
    "Verif.Post.C44_succeeds",
    "Verif.Post.C44_entry",
    "Verif.Post.C44_tls_symbol_confuses"
   ],
   "note": "x86_64, all libraries whose patchable entries do not overlap, whenever the tool succeeds; C44_succeeds says when it does, and C44_tls_symbol_confuses shows that symbols with misleading values are undefined behaviour. libelf writing the file is not modelled."
  },
  {
   "property": "C45",
   "status": "partial",
   "theorems": [
    "Verif.Alloc.C45_posix_memalign",
    "Verif.Alloc.C45_aligned_alloc_partial",
    "Verif.Alloc.C45_aligned_alloc_zero"
   ],
   "note": "posix_memalign as stated for all alignments and sizes; aligned_alloc for all alignments but 0, which is accepted with size 0 (proved)."
  },
  {
   "property": "C46",
   "status": "proved",
   "theorems": [
    "Verif.Ppc.C46_branch_decodes",
    "Verif.Ppc.C46_not_for_forward"
   ],
   "note": "For all negative word-aligned displacements of the 24 bits used; C46_not_for_forward shows that others (which are never requested) are not encoded."
  },
  {
   "property": "C47",
   "status": "proved",
   "theorems": [
    "Verif.Ppc.C47_returns_to_caller",
    "Verif.Ppc.C47_return_is_transparent"
   ],
   "note": "For every execution of a thread over the instruction-level model of the trampoline; __tls_get_addr may do whatever the ABI allows. Not included: non-local exits (C61) and signal handlers inside the trampoline (C62)."
  },
  {
   "property": "C48",
   "status": "partial",
   "theorems": [
    "Verif.ErrState.C48_blocked_iff_listed_partial",
    "Verif.ErrState.C48_no_path_writes_outside"
   ],
   "note": "Any fnmatch relation; token splitting proved against a declarative description. Holds if readlink gives a path shorter than PATH_MAX; otherwise the code writes outside its buffer (proved)."
  },
  {
   "property": "C49",
   "status": "partial",
   "theorems": [
    "Verif.Listing.C49_all_once_partial",
    "Verif.Listing.C49_thread_same",
    "Verif.Listing.C49_first_failure_ends",
    "Verif.Listing.C49_failure_repeats",
    "Verif.Listing.C49_first_failure_hangs"
   ],
   "note": "Proved if data can be collected of all selected processes, and that the worker thread makes no difference in any interleaving. False otherwise: a failure for the first process ends the iteration with nothing (and with the thread may hang the tool), later failures repeat the process before; both proved in general."
  },
  {
   "property": "C50",
   "status": "proved",
   "theorems": [
    "Verif.Runtime.C50_references_point_at_target"
   ],
   "note": ""
  },
  {
   "property": "C51",
   "status": "partial",
   "theorems": [
    "Verif.Listing.C51_no_overread_partial",
    "Verif.Listing.C51_overread"
   ],
   "note": "Proved for texts that do not end in a character that can end a label. False of texts that end in a label: the scan steps over the NUL (proved for all texts ending in a bug number)."
  },
  {
   "property": "C52",
   "status": "proved",
   "theorems": [
    "Verif.ErrState.C52_changes",
    "Verif.ErrState.C52_internal_error",
    "Verif.ErrState.C52_internal_error_concurrent",
    "Verif.ErrState.C52_effect",
    "Verif.ErrState.C52_idempotent",
    "Verif.ErrState.C52_report_undefined",
    "Verif.ErrState.C52_concurrent_disable_enables",
    "Verif.ErrState.C52_concurrent_enable_disables",
    "Verif.ErrState.C52_one_at_a_time",
    "Verif.ErrState.C52_concurrent_parity",
    "Verif.ErrState.C52_concurrent_undone"
   ],
   "note": "For commands one after the other and any failure of hijacking, running or restoring. Also shown: the report after a failed hijack is undefined, and of commands at the same time only the parity of their number counts, so that any even number of concurrent disable commands can leave the process enabled."
  },
  {
   "property": "C53",
   "status": "partial",
   "theorems": [
    "Verif.Text.C53_buildid_text_partial",
    "Verif.Text.C53_short_buildid_undefined",
    "Verif.Text.C53_garbage_uninitialized"
   ],
   "note": "true for hexadecimal texts shorter than 20 or of at least 40 characters; false for 20..38 hexadecimal digits and for other characters (proved)"
  },
  {
   "property": "C54",
   "status": "partial",
   "theorems": [
    "Verif.BuildId.C54_tool_finds_build_id_partial",
    "Verif.BuildId.C54_misses_build_id",
    "Verif.BuildId.C54_pads_short_build_id",
    "Verif.BuildId.C54_other_length_ignored"
   ],
   "note": "False of the code: the rounding `len += len % 4` is right only for even lengths. Proved for even lengths; proved that a build id after a 1-byte descriptor is missed and that an 18-byte build id is taken for a 20-byte one."
  },
  {
   "property": "C55",
   "status": "partial",
   "theorems": [
    "Verif.AsUnsafe.C55_busy_is_temporary_partial",
    "Verif.AsUnsafe.C55_contended_lock_disables_for_good"
   ],
   "note": "False of the code: dl_locks_held asserts that the futex words of the loader locks are 0 or 1, but a contended lock has 2; libpulp then goes into an error state for good. Proved in general, with the part that holds."
  },
  {
   "property": "C56",
   "status": "partial",
   "theorems": [
    "Verif.Trigger.C56_busy_retried_partial",
    "Verif.Trigger.C56_busy_after_revert_not_retried"
   ],
   "note": "Holds when only reverting or only applying. Negation proved for both at once: busy after a successful revert is not tried again."
  },
  {
   "property": "C57",
   "status": "partial",
   "theorems": [
    "Verif.ErrState.C57_start_error_kept_partial",
    "Verif.ErrState.C57_start_error_forgotten"
   ],
   "note": "Holds if no pattern matches. Negation proved: with a matching pattern the error is replaced by \"blocked by user\", and enabling makes the process patchable."
  },
  {
   "property": "C58",
   "status": "proved",
   "theorems": [
    "Verif.Ppc.C58_activate",
    "Verif.Ppc.C58_deactivate",
    "Verif.Ppc.C58_round_trip"
   ],
   "note": "For functions with the NOP at their entry or 8 bytes behind it, which is what get_branch_offset looks for."
  },
  {
   "property": "C59",
   "status": "partial",
   "theorems": [
    "Verif.Ppc.C59_refused_deactivation_partial",
    "Verif.Ppc.C59_refused_activation_overwrites",
    "Verif.Ppc.C59_any_nop_accepted"
   ],
   "note": "False of the code for activations: the prologue is queued before the check, so the 52 bytes before a refused function are overwritten (proved for all refused functions). Proved for deactivations."
  },
  {
   "property": "C60",
   "status": "partial",
   "theorems": [
    "Verif.Ppc.C60_arguments_partial",
    "Verif.Ppc.C60_results_partial",
    "Verif.Ppc.C60_any_jump"
   ],
   "note": "Proved if __tls_get_addr preserves r4, r7-r11 and CTR, as its short path does. False for what the ABI allows: C60_any_jump shows that the trampoline may then jump anywhere."
  },
  {
   "property": "C61",
   "status": "partial",
   "theorems": [
    "Verif.Ppc.C61_longjmp_misreturns",
    "Verif.Ppc.C61_partial"
   ],
   "note": "False of the code: after a non-local exit out of a livepatched function into a livepatched function the latter returns behind the call of the former (proved for all such executions). Proved for exits that leave no livepatched call."
  },
  {
   "property": "C62",
   "status": "partial",
   "theorems": [
    "Verif.Ppc.C62_handler_outside_partial",
    "Verif.Ppc.C62_handler_in_window"
   ],
   "note": "False of the code: a handler that runs between the store of the used size and the reads of the entry overwrites the entry (proved for all states). Proved for handlers that run outside of the trampoline."
  },
  {
   "property": "C63",
   "status": "partial",
   "theorems": [
    "Verif.Ppc.C63_never_freed",
    "Verif.Ppc.C63_partial"
   ],
   "note": "False of the code: pthread_setspecific is never called, so the destructor never runs (proved for any number of growths)."
  },
  {
   "property": "C64",
   "status": "partial",
   "theorems": [
    "Verif.Listing.C64_selected_partial",
    "Verif.Listing.C64_root_always",
    "Verif.Listing.C64_nameless_always"
   ],
   "note": "Proved except for root's processes and those of nameless users when a user name is asked for, which are selected always (proved)."
  },
  {
   "property": "C65",
   "status": "proved",
   "theorems": [
    "Verif.Listing.C65_labels_shown"
   ],
   "note": "For all texts in which each label is followed by a separator; a label at the very end of the text is the case of C51."
  },
  {
   "property": "C66",
   "status": "partial",
   "theorems": [
    "Verif.Listing.C66_one_comment_partial",
    "Verif.Listing.C66_only_first_comment",
    "Verif.Listing.C66_heap_byte_embedded"
   ],
   "note": "False of the code: read_comment leaves one byte unwritten behind each comment. If it is zero only the first comment is embedded, else the byte is embedded too (both proved for all comments). Proved for one comment and a zero byte."
  },
  {
   "property": "C67",
   "status": "partial",
   "theorems": [
    "Verif.Listing.C67_within_buffer_partial",
    "Verif.Listing.C67_overflow"
   ],
   "note": "Proved for lines shorter than 128 KiB; false for a first line of 128 KiB or more (proved)."
  },
  {
   "property": "C68",
   "status": "partial",
   "theorems": [
    "Verif.SymLoad.C68_named_library_partial",
    "Verif.SymLoad.C68_by_name_partial",
    "Verif.SymLoad.C68_applied_functions_partial",
    "Verif.SymLoad.C68_wrong_library",
    "Verif.SymLoad.C68_program_named_like_library"
   ],
   "note": "Holds if no object before the library has the library's name anywhere in its path and the program was not started under that name. False otherwise: names are compared with strstr and the first match wins (proved for all such processes)."
  },
  {
   "property": "C69",
   "status": "partial",
   "theorems": [
    "Verif.SymLoad.C69_not_loaded_fails_partial",
    "Verif.SymLoad.C69_bare_offset",
    "Verif.SymLoad.C69_recorded"
   ],
   "note": "The request is always answered with an error (proved), but before that the patch is recorded as applied and its functions are taken to be at their bare offsets (proved for all idle processes)."
  },
  {
   "property": "C70",
   "status": "partial",
   "theorems": [
    "Verif.SymLoad.C70_starts_partial",
    "Verif.SymLoad.C70_no_hash_crash",
    "Verif.SymLoad.C70_old_libc_crash"
   ],
   "note": "Proved for C library 2.31 and newer whose dynamic linker has a DT_HASH section. False otherwise: the program exits (proved). What happens with the locks afterwards is C55."
  },
  {
   "property": "C71",
   "status": "partial",
   "theorems": [
    "Verif.Redirect.C71_routine_calls_once",
    "Verif.Redirect.C71_success_iff_stop",
    "Verif.Redirect.C71_ran_to_end_partial",
    "Verif.Redirect.C71_premature",
    "Verif.Redirect.C71_success_without_running"
   ],
   "note": "Proved when no signal reaches the process during the operation. In general false: any stop of the thread counts as success, so a signal that arrives while the routine runs makes the tool take it for finished with whatever the result register holds; the negation is proved for every routine."
  },
  {
   "property": "C72",
   "status": "partial",
   "theorems": [
    "Verif.Redirect.C72_result_reported_partial",
    "Verif.Redirect.C72_reported_not_run"
   ],
   "note": "Proved when the interrupted thread's result register differs from the routine's error code. Otherwise the tool reports that the hook did not run, which is proved for every error code other than EAGAIN."
  },
  {
   "property": "C73",
   "status": "partial",
   "theorems": [
    "Verif.Redirect.C73_no_signal_lost_partial",
    "Verif.Redirect.C73_signal_lost",
    "Verif.Redirect.C73_pending_signal_lost"
   ],
   "note": "Proved when no signal is sent between attaching and detaching. In general false: the tool continues the thread without passing on the signal it stopped for; proved for every signal other than SIGKILL."
  },
  {
   "property": "C74",
   "status": "partial",
   "theorems": [
    "Verif.Redirect.C74_gives_up",
    "Verif.Redirect.C74_never_returns",
    "Verif.Redirect.C74_timeout_kills",
    "Verif.Redirect.C74_released_partial"
   ],
   "note": "The wait ends after the configured time (proved). The process is restored only when the routine was seen to stop; after a time-out the thread never returns to its own code and is killed by the trap at the routine's end once the tool is gone (both proved)."
  },
  {
   "property": "C75",
   "status": "partial",
   "theorems": [
    "Verif.Extract.C75_json_roundtrip_partial",
    "Verif.Extract.C75_large_offset",
    "Verif.Json.C75_tree_roundtrip_partial"
   ],
   "note": "Proved exactly when it holds: if and only if all offsets fit a signed 32-bit integer. For offsets of 2 GiB and above the offset read back is another one (proved)."
  },
  {
   "property": "C76",
   "status": "partial",
   "theorems": [
    "Verif.Extract.C76_same_build_partial",
    "Verif.Extract.C76_foreign_debuginfo",
    "Verif.Extract.C76_no_buildid_debuginfo"
   ],
   "note": "Proved for debug information of the same build. Debug information of another build only gives a warning, and its offsets are recorded under the library's build id; debug information without a build id makes the tool use a NULL pointer (both proved)."
  },
  {
   "property": "C77",
   "status": "partial",
   "theorems": [
    "Verif.Extract.C77_lookup_partial",
    "Verif.Extract.C77_undefined_shadows",
    "Verif.Extract.C77_duplicates"
   ],
   "note": "Proved for names all of whose symbols have the same value. An undefined symbol hides a definition, and of several static functions only the last is found (both proved)."
  },
  {
   "property": "C78",
   "status": "partial",
   "theorems": [
    "Verif.Extract.C78_first_note_partial",
    "Verif.Extract.C78_second_note_missed",
    "Verif.Extract.C78_search_never_ends"
   ],
   "note": "Proved if the build id is the first note of its section. Otherwise false: the search continues at offset 1, and misses the build id or does not end (both proved)."
  },
  {
   "property": "C79",
   "status": "partial",
   "theorems": [
    "Verif.Extract.C79_accepted_length_partial",
    "Verif.Extract.C79_long_id_overflows",
    "Verif.Extract.C79_short_id_aborts"
   ],
   "note": "Nothing else than 20 bytes is accepted (proved), but longer build ids overflow the buffer and shorter ones abort the tool (proved for all)."
  },
  {
   "property": "C80",
   "status": "proved",
   "theorems": [
    "Verif.Dsc.C80_describes",
    "Verif.Dsc.C80_reaches_process"
   ],
   "note": "For descriptions of the grammar in Dsc/Spec.lean; what libelf and json-c return is taken as the library information."
  },
  {
   "property": "C81",
   "status": "partial",
   "theorems": [
    "Verif.Dsc.C81_accepted_partial",
    "Verif.Dsc.C81_second_target_refused",
    "Verif.Dsc.C81_imported_function_accepted"
   ],
   "note": "False of the code: a function the target only imports counts as its own, with address 0. What holds for every accepted text is proved."
  },
  {
   "property": "C82",
   "status": "partial",
   "theorems": [
    "Verif.Dsc.C82_safe_partial",
    "Verif.Dsc.C82_leading_colon",
    "Verif.Dsc.C82_nul_line",
    "Verif.Dsc.C82_reference_without_colon",
    "Verif.Dsc.C82_reference_with_one_offset",
    "Verif.Dsc.C82_no_target",
    "Verif.Dsc.C82_long_target"
   ],
   "note": "False of the code for the six kinds of text shown; proved safe for all texts without them. Comment lines are C66 and C67."
  },
  {
   "property": "C83",
   "status": "partial",
   "theorems": [
    "Verif.Dsc.C83_dependency_refused",
    "Verif.Dsc.C80_describes"
   ],
   "note": "False of the code: every dependency that is an ELF file is refused. Dependencies given as raw metadata are recorded (C80)."
  },
  {
   "property": "C84",
   "status": "partial",
   "theorems": [
    "Verif.Dsc.C84_offsets_used_partial",
    "Verif.Dsc.C84_zero_offset_ignored",
    "Verif.Dsc.C84_zero_offset_refused",
    "Verif.Dsc.C84_huge_offset",
    "Verif.Dsc.C84_negative_offset"
   ],
   "note": "False of the code for an explicit target offset of zero; true for offsets from 1 to 2^63-1."
  },
  {
   "property": "C85",
   "status": "partial",
   "theorems": [
    "Verif.Pack.C85_embedded_partial",
    "Verif.Pack.C85_reaches_process",
    "Verif.Pack.C85_early_failure_reported",
    "Verif.Pack.C85_status_ignored",
    "Verif.Pack.C85_objcopy_failure_ignored",
    "Verif.Pack.C85_comments_failure_ignored",
    "Verif.Pack.C85_exec_failure_crashes"
   ],
   "note": "False in general: the status of objcopy is never looked at, a failure to embed the comments is lost in a shadowed variable, and a failing execv returns in the child of vfork; each is proved. What is proved: with a working objcopy all sections are embedded and reach the process as described, and failures before objcopy runs are reported."
  },
  {
   "property": "C86",
   "status": "partial",
   "theorems": [
    "Verif.Pack.C86_repack_partial",
    "Verif.Pack.C86_stale_comments"
   ],
   "note": "Holds for .ulp and .ulp.rev, and for .ulp.comments if the second description has comments; otherwise the old comments stay, which is proved."
  },
  {
   "property": "C87",
   "status": "partial",
   "theorems": [
    "Verif.Pack.C87_id",
    "Verif.Pack.C87_distinct_partial",
    "Verif.Pack.C87_same_id"
   ],
   "note": "Only the first 16 of the 20 bytes of a build id are used: ids differ if those differ, and coincide if those and the descriptions agree; both proved."
  },
  {
   "property": "C88",
   "status": "partial",
   "theorems": [
    "Verif.Pack.C88_unused_partial",
    "Verif.Pack.C88_no_conflict",
    "Verif.Pack.C88_conflict_hangs"
   ],
   "note": "A path that is found is unused; but the conflict flag is never reset, so after one conflict the search never ends, which is proved."
  },
  {
   "property": "C89",
   "status": "partial",
   "theorems": [
    "Verif.MiniElf.C89_section_partial",
    "Verif.MiniElf.C89_reported_partial",
    "Verif.MiniElf.C89_reaches_process_partial"
   ],
   "note": "Proved for all 64-bit ELF files whose section names take at most 1280 bytes; for others the code has undefined behaviour (C90)."
  },
  {
   "property": "C90",
   "status": "partial",
   "theorems": [
    "Verif.MiniElf.C90_safe_partial",
    "Verif.MiniElf.C90_long_strtbl",
    "Verif.MiniElf.C90_large_headers",
    "Verif.MiniElf.C90_name_outside",
    "Verif.MiniElf.C90_short_section"
   ],
   "note": "False in general, proved for four kinds of files: more than 1280 bytes of section names, headers larger than 64 bytes, names outside of the table, and metadata of less than 33 bytes. Lookup of a section is proved safe for files with sane headers and string table, whatever else they contain."
  },
  {
   "property": "C91",
   "status": "partial",
   "theorems": [
    "Verif.MiniElf.C91_state_kept_partial",
    "Verif.MiniElf.C91_error_state_blocks",
    "Verif.MiniElf.C91_bad_file_disables"
   ],
   "note": "False for files whose section headers have another size than 64 bytes: after them nothing is ever loaded. Proved for all other files."
  },
  {
   "property": "C92",
   "status": "partial",
   "theorems": [
    "Verif.Inspect.C92_objects_partial",
    "Verif.Inspect.C92_no_pt_phdr",
    "Verif.Inspect.C92_no_debug_tag"
   ],
   "note": "False of programs without PT_PHDR (bias taken to be 0), proved; also needs 15 readable bytes behind each name. Proved for all other process images."
  },
  {
   "property": "C93",
   "status": "partial",
   "theorems": [
    "Verif.Inspect.C93_entry_points_partial",
    "Verif.Inspect.C93_not_loaded",
    "Verif.Inspect.C93_gnu_hash",
    "Verif.Inspect.C93_name_at_end",
    "Verif.Inspect.C93_headers_elsewhere"
   ],
   "note": "False of libraries with only a GNU hash table (no symbol found) and of symbols after one whose name is at the end of readable memory; both proved. Proved for all other process images with exactly one complete libpulp."
  },
  {
   "property": "C94",
   "status": "partial",
   "theorems": [
    "Verif.Inspect.C94_ready_partial",
    "Verif.Inspect.C94_gnu_hash",
    "Verif.Inspect.C94_not_loaded"
   ],
   "note": "Under the conditions of C92 and C93; with only a GNU hash table the answer is 'try again later' at every time."
  },
  {
   "property": "C95",
   "status": "partial",
   "theorems": [
    "Verif.StackCheck.C95_check_iff",
    "Verif.StackCheck.C95_inside_refused_partial",
    "Verif.StackCheck.C95_broken_stack_refused",
    "Verif.StackCheck.C95_outside_accepted",
    "Verif.StackCheck.C95_other_name",
    "Verif.StackCheck.C95_first_address_missed"
   ],
   "note": "The check is characterised exactly, parsing of the maps file included. False of libraries whose name in the metadata is not in the lines of the maps file (for instance a symbolic link), and of the first address of the library; proved as C95_other_name and C95_first_address_missed."
  },
  {
   "property": "C96",
   "status": "partial",
   "theorems": [
    "Verif.StackCheck.C96_no_change_when_refused",
    "Verif.StackCheck.C96_refusal_reported",
    "Verif.StackCheck.C96_tried_again",
    "Verif.StackCheck.C96_revert_all_crashes"
   ],
   "note": "Proved for all runs with a live patch. False of --revert-all without a live patch: the check dereferences a null pointer while all threads are stopped (C96_revert_all_crashes)."
  },
  {
   "property": "C97",
   "status": "partial",
   "theorems": [
    "Verif.Status.C97_patches_shown_partial",
    "Verif.Status.C97_other_name",
    "Verif.Status.C97_same_name",
    "Verif.Status.C97_name_at_end"
   ],
   "note": "Whole output characterised, for lists of any length. False when the metadata names the target by another base name than the file loaded has (nothing shown), of two libraries of the same base name (shown with both), and when a name ends within a word of the end of readable memory (undefined behaviour)."
  },
  {
   "property": "C98",
   "status": "partial",
   "theorems": [
    "Verif.Status.C98_libraries_shown_partial",
    "Verif.Status.C98_gnu_hash",
    "Verif.Status.C98_endbr64",
    "Verif.Status.C98_many_symbols"
   ],
   "note": "Whole output characterised for objects with 1 to 8000 dynamic symbols counted by DT_HASH. False of objects without DT_HASH (uninitialised variable), of libraries whose functions start with endbr64 (not shown), and of functions beyond the first 8000 symbols."
  },
  {
   "property": "C99",
   "status": "proved",
   "theorems": [
    "Verif.Status.C99_status",
    "Verif.Status.C99_old"
   ],
   "note": ""
  },
  {
   "property": "C100",
   "status": "partial",
   "theorems": [
    "Verif.SelfWrite.C100_protection_as_listed_partial",
    "Verif.SelfWrite.C100_long_line_hides_the_rest"
   ],
   "note": "True as long as no line of 2048 bytes or more comes first; false otherwise: such a line hides all mappings behind it."
  },
  {
   "property": "C101",
   "status": "partial",
   "theorems": [
    "Verif.SelfWrite.C101_reported_write_is_done",
    "Verif.SelfWrite.C101_write_all_or_nothing",
    "Verif.SelfWrite.C101_possible_write_is_done",
    "Verif.SelfWrite.C101_write_up_to_page_end_refused",
    "Verif.SelfWrite.C101_refused_page_leaves_others_writable"
   ],
   "note": "Reported writes and atomicity proved. False: a write ending at a page boundary is refused if the next page is not mapped, and pages stay writable if mprotect refuses a later page."
  },
  {
   "property": "C102",
   "status": "partial",
   "theorems": [
    "Verif.SelfWrite.C102_possible_requests_performed_partial",
    "Verif.SelfWrite.C102_success_without_any_write",
    "Verif.SelfWrite.C102_single_write_report_partial"
   ],
   "note": "False: the errno of a failed write is taken for the size of the instruction, and EMFILE is the size of a write of up to 8 bytes. Proved if nothing is refused, and for a single write."
  },
  {
   "property": "C103",
   "status": "proved",
   "theorems": [
    "Verif.Report.C103_report_names_applied_and_failed"
   ],
   "note": "Both directions, for both output forms."
  },
  {
   "property": "C104",
   "status": "partial",
   "theorems": [
    "Verif.Report.C104_report_agrees_with_totals_partial",
    "Verif.Report.C104_skipped_reported_as_failed"
   ],
   "note": "False of the code: errors counted as skipped other than EBUILDID and ENOTARGETLIB are printed as FAILED in the long form (general negation). Proved if such errors do not occur."
  },
  {
   "property": "C105",
   "status": "partial",
   "theorems": [
    "Verif.Report.C105_every_patch_listed_partial",
    "Verif.Report.C105_uniform_skips_not_listed"
   ],
   "note": "False of the code when all results are the same minor error: nothing is printed (proved in general). Proved in all other cases."
  },
  {
   "property": "C106",
   "status": "partial",
   "theorems": [
    "Verif.Walk.C106_files_tried",
    "Verif.Walk.C106_files_tried_current",
    "Verif.Walk.C106_exactly_patches_partial",
    "Verif.Walk.C106_directory_tried_as_file"
   ],
   "note": "Exact characterisation of the files tried, with the paths longer than 255 bytes that the code skips excluded in the spec. False of the code with --recursive for directories with matching names (general negation); otherwise proved. fnmatch is a parameter; the file system does not change during the search."
  },
  {
   "property": "C107",
   "status": "partial",
   "theorems": [
    "Verif.Walk.C107_search_ends_partial",
    "Verif.Walk.C107_trailing_slash_diverges"
   ],
   "note": "Termination and absence of overflow proved for paths that do not end in a slash; for those that do, divergence is proved whenever the folder has a subdirectory."
  },
  {
   "property": "C108",
   "status": "proved",
   "theorems": [
    "Verif.Heap.C108_apply",
    "Verif.Heap.C108_revert",
    "Verif.Heap.C108_tool"
   ],
   "note": "Allocation and release only; every allocation and read may fail at any point."
  },
  {
   "property": "C109",
   "status": "partial",
   "theorems": [
    "Verif.Heap.C109_refused_leaks",
    "Verif.Heap.C109_apply_partial",
    "Verif.Heap.C109_tool"
   ],
   "note": "False of the code: free_metadata frees neither the structure nor the dependencies, so every request leaks. Proved: that every refused request leaks, exactly what a granted request leaves, and that the tools leave nothing after a complete parse."
  },
  {
   "property": "C110",
   "status": "partial",
   "theorems": [
    "Verif.Heap.C110_grows",
    "Verif.Heap.C110_exact_partial"
   ],
   "note": "False of the code: each round leaves 3 + dependencies + units + new roots blocks (container name, metadata structures, dependencies of the metadata, detours, roots). Proved exactly, and that n rounds leave at least 3n blocks."
  },
  {
   "property": "C111",
   "status": "partial",
   "theorems": [
    "Verif.Check.C111_status_partial",
    "Verif.Check.C111_zero_partial",
    "Verif.Check.C111_one_is_ambiguous",
    "Verif.Check.C111_error_state",
    "Verif.Check.C111_long_path",
    "Verif.Check.C111_range"
   ],
   "note": "False of the code: errors reading the container give 1, which is also the answer \"applied\"; in an error state all patches are reported as not applied; with a long path an unassigned pointer is used. Proved: these three, what 0 means, and that the status is right when nothing fails (through the packer and the parser)."
  },
  {
   "property": "C112",
   "status": "proved",
   "theorems": [
    "Verif.Check.C112_process"
   ],
   "note": ""
  },
  {
   "property": "C113",
   "status": "partial",
   "theorems": [
    "Verif.Dump.C113_shown_partial",
    "Verif.Dump.C113_hidden",
    "Verif.Dump.C113_patch_offset",
    "Verif.Dump.C113_short_build_id",
    "Verif.Dump.C113_packed_partial"
   ],
   "note": "False of the code: patch_offset is printed from target_offset, only 20 of the 32 bytes of the patch id, no dependencies and no target names are shown, and build ids shorter than 20 bytes are read past their end. Proved: two metadata with the same dump agree in everything else (C113_shown_partial), and the rest cannot be seen (C113_hidden)."
  },
  {
   "property": "C114",
   "status": "partial",
   "theorems": [
    "Verif.Dump.C114_more",
    "Verif.Dump.C114_first_line_partial"
   ],
   "note": "False of the code: the references (and comments) are printed as well. Proved, with: the first line is the build id."
  },
  {
   "property": "C115",
   "status": "proved",
   "theorems": [
    "Verif.Flow.C115_calls_follow_descriptions"
   ],
   "note": "The chain Dsc (packer) - Metadata (extract and parse) - SymLoad (lookup) - Runtime (libpulp). Situation assumed for applied patches: the target is the first loaded object with its name in the path, names stand for one offset, dlsym finds the new functions. That the .ulp section survives packing is Verif.Pack."
  },
  {
   "property": "C116",
   "status": "proved",
   "theorems": [
    "Verif.Flow.C116_references_point_at_variables"
   ],
   "note": "References must not overlap each other."
  },
  {
   "property": "C117",
   "status": "proved",
   "theorems": [
    "Verif.Flow.C117_accepted",
    "Verif.Flow.C117_revert_accepted",
    "Verif.Flow.C117_malformed_refused"
   ],
   "note": "Allocations succeed."
  },
  {
   "property": "C118",
   "status": "partial",
   "theorems": [
    "Verif.Startup.C118_requests_partial",
    "Verif.Startup.C118_early_request_crashes",
    "Verif.Startup.C118_early_request_granted",
    "Verif.Startup.C118_missing_named"
   ],
   "note": "False of the code: load_state is set by the first constructor, the lock pointers by the second; a request in between uses a NULL pointer (proved for each statement in between), one shortly after is granted although live patching is disabled (proved). Proved for all requests after the start."
  },
  {
   "property": "C119",
   "status": "partial",
   "theorems": [
    "Verif.Startup.C119_reaches_function_partial",
    "Verif.Startup.C119_missing_function"
   ],
   "note": "Proved if the four functions of the loader exist. If one does not, libpulp records an error and still calls it (proved)."
  },
  {
   "property": "C120",
   "status": "partial",
   "theorems": [
    "Verif.Startup.C120_nobody_inside_partial",
    "Verif.Startup.C120_later_partial",
    "Verif.Startup.C120_early_call"
   ],
   "note": "False for calls that started before libpulp knew the functions, which are not counted (proved). Proved for all others, and that after the start there are no new such calls."
  },
  {
   "property": "C121",
   "status": "proved",
   "theorems": [
    "Verif.Cli.C121_meaning",
    "Verif.Cli.C121_information",
    "Verif.Cli.C121_wrong",
    "Verif.Cli.C121_command_named"
   ],
   "note": "argp is modelled (glibc is not part of the repository): permuting mode, abbreviations, joined short options. The table of options is that of the first word that names a command (C122)."
  },
  {
   "property": "C122",
   "status": "partial",
   "theorems": [
    "Verif.Cli.C122_own_options_partial",
    "Verif.Cli.C122_value_taken_for_command",
    "Verif.Cli.C122_program_taken_for_command",
    "Verif.Cli.C122_correct_line_refused"
   ],
   "note": "False in general: the table of options is chosen by the first word equal to a command name, also if it is the value of an option or the program name. Holds if none of them is such a name."
  },
  {
   "property": "C123",
   "status": "proved",
   "theorems": [
    "Verif.Cli.C123_scope",
    "Verif.Cli.C123_free",
    "Verif.Cli.C123_check_says_applied"
   ],
   "note": "The status 1 of the refusal is the one by which ulp check says that a patch is applied. Levels are one character and a newline, as the kernel writes them; anything else fails an assertion."
  },
  {
   "property": "C124",
   "status": "proved",
   "theorems": [
    "Verif.Cli.C124_seccomp",
    "Verif.Cli.C124_no_proc",
    "Verif.Cli.C124_not_asked"
   ],
   "note": "The status file has the form the kernel writes: every line begins with a word, the capabilities are 16 hexadecimal digits."
  },
  {
   "property": "C125",
   "status": "proved",
   "theorems": [
    "Verif.Cli.C125_user"
   ],
   "note": "The option is documented but not supported."
  },
  {
   "property": "C126",
   "status": "partial",
   "theorems": [
    "Verif.Cli.C126_retries_partial",
    "Verif.Cli.C126_timeout_partial",
    "Verif.Cli.C126_retries_wrong"
   ],
   "note": "False for retries from 2^31 on (taken modulo 2^32) and for digits followed by other text (ignored); holds for decimal numbers below 2^31, and for time limits below 2^63."
  },
  {
   "property": "C127",
   "status": "partial",
   "theorems": [
    "Verif.Prepare.C127_apply_partial",
    "Verif.Prepare.C127_revert_partial",
    "Verif.Prepare.C127_long_path",
    "Verif.Prepare.C127_overflow"
   ],
   "note": "False for long paths: from 4095 bytes on the tool reports missing metadata, and with a process rooted in /proc a --root of 4088 bytes or more overflows a static buffer. Holds below, for build ids of 20 bytes."
  },
  {
   "property": "C128",
   "status": "proved",
   "theorems": [
    "Verif.Prepare.C128_newer"
   ],
   "note": "A version that cannot be read counts as old."
  },
  {
   "property": "C129",
   "status": "partial",
   "theorems": [
    "Verif.Midway.C129_thread_continues_partial",
    "Verif.Midway.C129_always_a_version_partial",
    "Verif.Midway.C129_revert_all_stale",
    "Verif.Midway.C129_unmerged_stuck"
   ],
   "note": "Proved for libraries processed by ulp post and requests that add or remove one version of the function at a time. False otherwise: revert-all of two patches of a function leaves the trampoline with the older, superseded one, where a stopped thread continues; without ulp post a thread between the two nops executes the second byte of the jump."
  },
  {
   "property": "C130",
   "status": "partial",
   "theorems": [
    "Verif.Session.C130_success_in_force_partial",
    "Verif.Session.C130_patched_partial",
    "Verif.Session.C130_unknown_queue",
    "Verif.Session.C130_unknown_queue_never"
   ],
   "note": "False when the tool does not know the address of the queue (EOLDLIBPULP is ignored): C130_unknown_queue_never, for every process and every patch; and when a single write fails in certain ways (C07). Proved for all other failures."
  },
  {
   "property": "C131",
   "status": "proved",
   "theorems": [
    "Verif.Session.C131_all_or_nothing",
    "Verif.Session.C131_nothing_left"
   ],
   "note": "Unless libpulp has recorded an internal error; failing single writes are excluded (C06, C07)."
  },
  {
   "property": "C132",
   "status": "partial",
   "theorems": [
    "Verif.Session.C132_failure_changes_nothing_partial",
    "Verif.Session.C132_failed_but_in_force",
    "Verif.Session.C132_never_again",
    "Verif.Session.C132_failed_in_force_always"
   ],
   "note": "False when the queue cannot be reset after it was executed: the patch is in force, failure is reported (C132_failed_in_force_always: after every history, for every patch that libpulp accepts and any number of retries), and every later run fails. Proved for runs without failures after libpulp was asked."
  },
  {
   "property": "C133",
   "status": "proved",
   "theorems": [
    "Verif.Tools.C133_one_inside",
    "Verif.Tools.C133_one_by_one",
    "Verif.Tools.C133_calls",
    "Verif.Tools.C133_gets_through",
    "Verif.Tools.C133_killed",
    "Verif.Tools.C133_killed_always"
   ],
   "note": "Mutual exclusion through the main thread's tracer, and serialisability, for all interleavings. C133_gets_through shows that the steps suffice for a tool to complete; C133_killed that the condition on kills is needed, C133_killed_always that this is so for every process, every history and every request that changes anything. That hijack_threads succeeds only with all threads attached is C35."
  },
  {
   "property": "C134",
   "status": "proved",
   "theorems": [
    "Verif.Messages.C134_one_moment",
    "Verif.Messages.C134_address"
   ],
   "note": "Snapshot consistency for all schedules, composed with C01; that tools run libpulp's functions only with the main thread attached is C133. Messages logged while the process starts are not modelled."
  },
  {
   "property": "C135",
   "status": "partial",
   "theorems": [
    "Verif.Messages.C135_process_number_partial",
    "Verif.Messages.C135_refused",
    "Verif.Messages.C135_other_process"
   ],
   "note": "Proved for numbers below 2^31, which all process numbers are. The full property is false of the code: atoi cuts larger numbers, so that the messages of another process are shown (C135_other_process, for all of them below 2^63)."
  },
  {
   "property": "C136",
   "status": "partial",
   "theorems": [
    "Verif.Messages.C136_print_safe_partial",
    "Verif.Messages.C136_length",
    "Verif.Messages.C136_outside"
   ],
   "note": "Exact condition proved (if and only if). The full property is false of the code: bottom and distance are not checked (C136_outside)."
  },
  {
   "property": "C137",
   "status": "proved",
   "theorems": [
    "Verif.Crowd.C137_running_threads",
    "Verif.Crowd.C137_nothing_left"
   ],
   "note": "Combines C131 and C133. Kills in the middle of an action and failing single writes are excluded (see C06 and C133_killed for what they leave)."
  },
  {
   "property": "C138",
   "status": "partial",
   "theorems": [
    "Verif.Records.C138_listing",
    "Verif.Records.C138_given_back_partial",
    "Verif.Records.C138_lost",
    "Verif.Records.C138_single"
   ],
   "note": "No block is released twice or used after release, for all runs; exactly one block is lost for every process of which the auxiliary vector or the link map cannot be read (proved, C138_lost: dig_load_bias and get_libname_dynobj return without freeing), so giving everything back is proved under the hypothesis that this does not happen. The task directory of a process lists the process itself (Linux). The case of C49_first_failure_ends, in which a listing with threads ends while the thread still runs, is not modelled here."
  },
  {
   "property": "C139",
   "status": "partial",
   "theorems": [
    "Verif.Records.C139_in_order_partial",
    "Verif.Records.C139_no_proc"
   ],
   "note": "False if /proc cannot be opened and threads are used: pthread_join is called for a thread never started (proved). Starting the thread and the queue succeed."
  },
  {
   "property": "C140",
   "status": "partial",
   "theorems": [
    "Verif.Diag.C140_message",
    "Verif.Diag.C140_missing_partial",
    "Verif.Diag.C140_expected_partial",
    "Verif.Diag.C140_empty",
    "Verif.Diag.C140_nul"
   ],
   "note": "The layout is proved for all descriptions. That the marked part is the reported symbol holds for lines without NUL characters and nonempty names; with a NUL character more is marked (C140_nul)."
  },
  {
   "property": "C141",
   "status": "proved",
   "theorems": [
    "Verif.Diag.C141_blame",
    "Verif.Diag.C141_prefix",
    "Verif.Diag.C141_always",
    "Verif.Diag.C141_reference_without_colon"
   ],
   "note": "C141_always: refinement to the reader of Verif.Dsc; a NULL pointer used there becomes the message of the SIGSEGV handler, which names the line but not the reason (C141_reference_without_colon)."
  },
  {
   "property": "C142",
   "status": "partial",
   "theorems": [
    "Verif.Killed.C142_unaffected_partial",
    "Verif.Killed.C142_halted",
    "Verif.Killed.C142_goes_on_partial",
    "Verif.Killed.C142_sigcont_partial",
    "Verif.Killed.C142_lost"
   ],
   "note": "False as stated; proved: nothing happens if the tool holds no thread (C142_unaffected_partial). Otherwise, if threads take the signals they were stopped for (ptrace(2)), the process never is as before unless somebody helps (C142_halted); if the kernel forgets them it goes on, provided that all threads have stopped and the main one has its own registers (C142_goes_on_partial). SIGCONT at any later moment helps unless the main thread had been given the registers of a routine (C142_sigcont_partial); if it had, it never runs the program again and the process can die from any later moment (C142_lost). Facts about the kernel are from ptrace(2)."
  },
  {
   "property": "C143",
   "status": "partial",
   "theorems": [
    "Verif.Killed.C143_whole_partial",
    "Verif.Killed.C143_sigcont",
    "Verif.Killed.C143_forgotten",
    "Verif.Killed.C143_any_part"
   ],
   "note": "Proved if threads take the signals they were stopped for and nobody sends SIGCONT, or if the tool was not in the middle of a queue when it was killed (C143_whole_partial); false otherwise: for every request and every number of its changes, threads can run with these and without the others (C143_any_part; C143_sigcont and C143_forgotten are cases in which one of two functions is patched)."
  },
  {
   "property": "C144",
   "status": "partial",
   "theorems": [
    "Verif.Loader.C144_container_partial",
    "Verif.Loader.C144_stale",
    "Verif.Loader.C144_replaced"
   ],
   "note": "False as stated. Proved if the path was not opened before or the file is the same (C144_container_partial). In general a path that libpulp has opened once gives the old code for ever (C144_stale); C144_replaced is a complete history with the answer 0."
  },
  {
   "property": "C145",
   "status": "proved",
   "theorems": [
    "Verif.Loader.C145_code_stays",
    "Verif.Loader.C145_one"
   ],
   "note": "C145_code_stays: the object is there now and after every later history; C145_one: no other object covers the address."
  },
  {
   "property": "C146",
   "status": "partial",
   "theorems": [
    "Verif.Loader.C146_refused_partial",
    "Verif.Loader.C146_left",
    "Verif.Loader.C146_refused_loaded"
   ],
   "note": "False as stated. Proved for the answers given before the container is opened (C146_refused_partial). In general an opened container stays whatever the answer (C146_left); C146_refused_loaded is a refused patch with its container loaded."
  },
  {
   "property": "C147",
   "status": "partial",
   "theorems": [
    "Verif.Many.C147_replaced_partial",
    "Verif.Many.C147_failure",
    "Verif.Many.C147_left_without"
   ],
   "note": "False in general: patches are reverted before the new one is known to be applicable. A live patch that depends on one in force for the same library always fails and leaves the library without patches (C147_left_without). True of runs that report success; when failure is reported either nothing has changed or all patches of the library are gone (C147_failure). The tool is assumed to know where the queue is."
  },
  {
   "property": "C148",
   "status": "partial",
   "theorems": [
    "Verif.Many.C148_all_in_force_partial",
    "Verif.Many.C148_last_only"
   ],
   "note": "True without --revert-all. False with it: each live patch reverts those applied before it in the same run, so that only the last one for the library is in force although success is reported for all (C148_last_only)."
  },
  {
   "property": "C149",
   "status": "partial",
   "theorems": [
    "Verif.Many.C149_in_order_partial",
    "Verif.Many.C149_again",
    "Verif.Many.C149_wrong_order",
    "Verif.Many.C149_last_wins"
   ],
   "note": "False in general: a live patch found before one that it depends on is refused (C149_wrong_order), and of two live patches for the same function the one found last is in force (C149_last_wins). True when dependencies are found first; and in any order all are in force after as many runs as there are live patches (C149_again)."
  },
  {
   "property": "C150",
   "status": "partial",
   "theorems": [
    "Verif.Names.C150_by_name_partial",
    "Verif.Names.C150_long_name_never",
    "Verif.Names.C150_same_start",
    "Verif.Names.C150_slash",
    "Verif.Names.C150_ended",
    "Verif.Names.C150_number"
   ],
   "note": "Proved for programs with names of at most 15 bytes whose processes kept them. False of longer names: given in full they never select anything, and no wildcard tells apart programs whose names share the first 15 bytes. Names with a slash count by what follows it. A number is always a process number."
  },
  {
   "property": "C151",
   "status": "partial",
   "theorems": [
    "Verif.Names.C151_mapped",
    "Verif.Names.C151_listed_partial",
    "Verif.Names.C151_impostor_hides",
    "Verif.Names.C151_impostor_repeats"
   ],
   "note": "Proved if every process that maps a file with libpulp.so in its path has libpulp loaded and ready. False otherwise: a process that maps such a file without having libpulp hides all processes if it comes first, or makes the one before it be handled twice."
  },
  {
   "property": "C152",
   "status": "partial",
   "theorems": [
    "Verif.Names.C152_by_number_partial",
    "Verif.Names.C152_by_name_partial",
    "Verif.Names.C152_unseen_any_name",
    "Verif.Names.C152_unseen_no_number"
   ],
   "note": "Proved if /proc tells the owners, none of which is root, and all have names. False of processes that are not dumpable and of kernels without auditing: they are selected for every user name and for no user number."
  },
  {
   "property": "C153",
   "status": "partial",
   "theorems": [
    "Verif.Switch.C153_enable",
    "Verif.Switch.C153_other_refused",
    "Verif.Switch.C153_disable_small_only"
   ],
   "note": "\"disable\" is compared with strcmp, so that DISABLE is refused (negation proved); all else proved."
  },
  {
   "property": "C154",
   "status": "proved",
   "theorems": [
    "Verif.Switch.C154_changes",
    "Verif.Switch.C154_effect"
   ],
   "note": "The effect is stated for programs with short names (topic Names shows what happens to others); the bounds on changes hold for every selection."
  },
  {
   "property": "C155",
   "status": "partial",
   "theorems": [
    "Verif.Switch.C155_told_partial",
    "Verif.Switch.C155_status_always_zero",
    "Verif.Switch.C155_no_retries",
    "Verif.Switch.C155_errors_silent"
   ],
   "note": "The exit status is 0 whatever happened, with -r 0 nothing is tried, and processes with internal errors are passed over silently (negations proved)."
  },
  {
   "property": "C156",
   "status": "partial",
   "theorems": [
    "Verif.Files.C156_yes_has_section",
    "Verif.Files.C156_exact_partial",
    "Verif.Files.C156_not_elf",
    "Verif.Files.C156_narrow_crashes",
    "Verif.Files.C156_nameless_crashes",
    "Verif.Files.C156_contents_ignored"
   ],
   "note": "a yes is always right about the section; exact for 64-bit files with named sections; a null pointer is used for others, and the contents of the table are not looked at (negations proved)"
  },
  {
   "property": "C157",
   "status": "partial",
   "theorems": [
    "Verif.Files.C157_failure_keeps_file",
    "Verif.Files.C157_success",
    "Verif.Files.C157_functions_ready",
    "Verif.Files.C157_again",
    "Verif.Files.C157_nothing_done_is_success",
    "Verif.Files.C157_bad_ends"
   ],
   "note": "failure keeps the file, success changes entries only, and a second run changes nothing; functions without a symbol are skipped silently, and a failing write may leave anything (negations proved)"
  },
  {
   "property": "C158",
   "status": "partial",
   "theorems": [
    "Verif.Files.C158_comments_partial",
    "Verif.Files.C158_no_file",
    "Verif.Files.C158_no_names_undefined"
   ],
   "note": "exact for files whose sections have names; a file with sections but without names makes the command compare with a null pointer (negation proved)"
  },
  {
   "property": "C159",
   "status": "partial",
   "theorems": [
    "Verif.Unload.C159_reload_unnoticed",
    "Verif.Unload.C159_revert_repairs"
   ],
   "note": "False of the code: libpulp does not notice that a library was unloaded and loaded again; the check still answers applied, and a new apply is refused as already applied, while calls go to the unpatched function. Reverting first repairs it if the library came back at the same place."
  },
  {
   "property": "C160",
   "status": "partial",
   "theorems": [
    "Verif.Unload.C160_unloaded_crashes",
    "Verif.Unload.C160_overwrites_other_code",
    "Verif.Unload.C160_other_code_kept",
    "Verif.Unload.C160_safe_partial"
   ],
   "note": "False of the code: addresses of functions once patched are kept for ever, and a later revert of the same patch reads there (crash if unmapped, even if the patch had been reverted before unloading) and may write there. Proved: safe as long as the livepatchable functions themselves stay mapped and untouched."
  },
  {
   "property": "C161",
   "status": "proved",
   "theorems": [
    "Verif.Power.C161_calls_reach_newest"
   ],
   "note": "Histories of requests on POWER over the whole process memory; where a call goes is found by decoding the entry and the stub."
  },
  {
   "property": "C162",
   "status": "proved",
   "theorems": [
    "Verif.Power.C162_revert_undoes_exactly",
    "Verif.Power.C162_apply_then_revert",
    "Verif.Power.C162_revert_accepted",
    "Verif.Power.C162_all_reverted_code_restored"
   ],
   "note": ""
  },
  {
   "property": "C163",
   "status": "proved",
   "theorems": [
    "Verif.Power.C163_only_stubs_and_references"
   ],
   "note": ""
  },
  {
   "property": "C164",
   "status": "proved",
   "theorems": [
    "Verif.Power.C164_references_point_at_target"
   ],
   "note": ""
  },
  {
   "property": "C165",
   "status": "partial",
   "theorems": [
    "Verif.Power.C165_refused_without_effect_partial",
    "Verif.Power.C165_refused_overwrites",
    "Verif.Power.C165_refused_keeps_functions",
    "Verif.Power.C165_refused_keeps_all"
   ],
   "note": "False of the code: a function without the NOP is refused only after the 52 bytes in front of it have been queued to be overwritten (C165_refused_overwrites, for every such function); a livepatch refused with ENONEWFUNC, ENOADDRESS or EUNKNOWN while it is being applied leaves all of its functions replaced (C165_refused_keeps_*, for every such livepatch). The partial theorem covers every refusal except these four codes."
  },
  {
   "property": "C166",
   "status": "partial",
   "theorems": [
    "Verif.Container.C166_current_code_partial",
    "Verif.Container.C166_earlier_code"
   ],
   "note": "False of the code: containers are never closed, so that dlopen returns the object loaded from the first file at that path (C166_earlier_code, for every history). Proved for paths and files not loaded before."
  },
  {
   "property": "C167",
   "status": "partial",
   "theorems": [
    "Verif.Container.C167_refused_loads_nothing_partial",
    "Verif.Container.C167_refused_loads"
   ],
   "note": "False of the code: a patch naming a function that its container lacks is refused after the container was loaded (C167_refused_loads). Proved for the refusals made before."
  },
  {
   "property": "C168",
   "status": "proved",
   "theorems": [
    "Verif.Container.C168_replacements_stay",
    "Verif.Container.C168_never_unloaded"
   ],
   "note": ""
  },
  {
   "property": "C169",
   "status": "partial",
   "theorems": [
    "Verif.Cut.C169_uncut_partial",
    "Verif.Cut.C169_before_partial",
    "Verif.Cut.C169_after_partial",
    "Verif.Cut.C169_stuck",
    "Verif.Cut.C169_earlier_instead",
    "Verif.Cut.C169_wrong_patch",
    "Verif.Cut.C169_twice",
    "Verif.Cut.C169_undefined",
    "Verif.Cut.C169_read_nothing",
    "Verif.Cut.C169_read_part"
   ],
   "note": "Holds for requests that are not cut, or cut before the metadata are allocated or after the routine returned. False otherwise: the next request works on the metadata of the cut one (earlier_instead, wrong_patch, twice, read_*), uses unset pointers (undefined), or is refused for ever when the cut was inside the allocator or the loader (stuck)."
  },
  {
   "property": "C170",
   "status": "partial",
   "theorems": [
    "Verif.Cut.C170_half_patch",
    "Verif.Cut.C170_before_partial"
   ],
   "note": "False: cut between two functions, the code is that of a patch with the first functions only. Holds for cuts before the first function is replaced."
  },
  {
   "property": "C171",
   "status": "partial",
   "theorems": [
    "Verif.Waits.C171_exactly",
    "Verif.Waits.C171_watched_partial",
    "Verif.Waits.C171_refused_partial",
    "Verif.Waits.C171_apply_waits",
    "Verif.Waits.C171_revert_waits",
    "Verif.Waits.C171_upkeep_waits",
    "Verif.Waits.C171_happens"
   ],
   "note": "False: every apply and every revert of a patch logs, logging takes the lock of the time zone, which the checks do not look at (apply_waits, revert_waits, happens); likewise functions of the allocator that are not interposed (upkeep_waits). Holds if no thread was stopped inside such a function (watched_partial). C171_exactly says exactly when a request ends."
  },
  {
   "property": "C172",
   "status": "partial",
   "theorems": [
    "Verif.Paint.C172_trigger_partial",
    "Verif.Paint.C172_plain_partial",
    "Verif.Paint.C172_patches_partial",
    "Verif.Paint.C172_packer_partial",
    "Verif.Paint.C172_names_as_they_are",
    "Verif.Paint.C172_recoloured"
   ],
   "note": "Proved against a model of a terminal for ulp trigger, ulp patches and the messages of ulp packer, for names without escape characters. Names with escape characters are written as they are, and then the claim is false (shown)."
  },
  {
   "property": "C173",
   "status": "partial",
   "theorems": [
    "Verif.Paint.C173_default",
    "Verif.Paint.C173_last_counts_partial",
    "Verif.Paint.C173_other_words"
   ],
   "note": "Proved for no option and for yes, no and auto. Other words are not refused but turn colours on, also when writing to a file (shown)."
  },
  {
   "property": "C174",
   "status": "partial",
   "theorems": [
    "Verif.Paint.C174_messages",
    "Verif.Paint.C174_trigger_totals",
    "Verif.Paint.C174_patches_all",
    "Verif.Paint.C174_check_partial",
    "Verif.Paint.C174_check_speaks"
   ],
   "note": "False of the code: ulp trigger prints its totals, ulp patches prints everything, and messages called fatal are always printed (shown). Proved: no other message remains, and ulp check is quiet unless threads could not be let go or the routine did not end."
  },
  {
   "property": "C175",
   "status": "partial",
   "theorems": [
    "Verif.Paint.C175_own_line_partial",
    "Verif.Paint.C175_joined"
   ],
   "note": "Proved if the time of every patch is known. Patches without a time, as in processes with libpulp before 0.3.1, run together on one line (shown)."
  },
  {
   "property": "C176",
   "status": "partial",
   "theorems": [
    "Verif.Kin.C176_same_program_partial",
    "Verif.Kin.C176_while_held",
    "Verif.Kin.C176_other_program",
    "Verif.Kin.C176_other_process"
   ],
   "note": "False of the code: nothing checks, after the process is stopped, that it still runs the program whose addresses were collected. Proved for every initial system and every new program; holds without execve and endings, and from the moment of stopping on."
  },
  {
   "property": "C177",
   "status": "partial",
   "theorems": [
    "Verif.Kin.C177_only_asked_partial",
    "Verif.Kin.C177_held_changes_partial",
    "Verif.Kin.C177_parent_written"
   ],
   "note": "False of the code for a process and its child by vfork, whose memory is the same; proved for all processes that do not share memory."
  },
  {
   "property": "C178",
   "status": "partial",
   "theorems": [
    "Verif.Kin.C178_running_partial",
    "Verif.Kin.C178_one_tool_partial",
    "Verif.Kin.C178_child_partial",
    "Verif.Kin.C178_apart_partial",
    "Verif.Kin.C178_parent_runs",
    "Verif.Kin.C178_two_tools"
   ],
   "note": "False of the code for a process and its child by vfork; proved for all processes that do not share memory."
  },
  {
   "property": "C179",
   "status": "partial",
   "theorems": [
    "Verif.Json.C179_read",
    "Verif.Json.C179_refused_partial",
    "Verif.Json.C179_no_symbols",
    "Verif.Json.C179_nameless",
    "Verif.Json.C179_taken_partial",
    "Verif.Json.C179_no_address",
    "Verif.Json.C179_large_address",
    "Verif.Json.C179_kind"
   ],
   "note": "Complete descriptions are read as they say; those without library, name or build id are refused. False of the code otherwise: a missing list of symbols or a nameless symbol crashes the tool, a missing address is taken as 0 and a large one as 2^31-1."
  },
  {
   "property": "C180",
   "status": "proved",
   "theorems": [
    "Verif.LogRace.C180_in_bounds"
   ],
   "note": "Sequentially consistent steps; each of vsnprintf, memset, memcpy and strlen is one step."
  },
  {
   "property": "C181",
   "status": "partial",
   "theorems": [
    "Verif.LogRace.C181_returns_partial",
    "Verif.LogRace.C181_distance_partial",
    "Verif.LogRace.C181_empty_hangs"
   ],
   "note": "False if empty messages are logged too (C181_empty_hangs), and for messages of exactly the size of the ring (C02). Proved for all other messages, with an explicit bound."
  },
  {
   "property": "C182",
   "status": "partial",
   "theorems": [
    "Verif.LogRace.C182_turns_partial",
    "Verif.LogRace.C182_alone_partial",
    "Verif.LogRace.C182_mixed",
    "Verif.LogRace.C182_torn"
   ],
   "note": "False of the code (C182_mixed, C182_torn: the static buffer into which messages are formatted is shared). Proved for threads that log one after the other."
  },
  {
   "property": "C183",
   "status": "partial",
   "theorems": [
    "Verif.Reason.C183_warn",
    "Verif.Reason.C183_errx_partial",
    "Verif.Reason.C183_reason_partial",
    "Verif.Reason.C183_string_lost",
    "Verif.Reason.C183_address_shown"
   ],
   "note": "False for libpulp_errx with a conversion in its text (lib/symbol_loader.c:203), as the va_list is passed to msgq_push: on x86-64 the name is always shown as an opening parenthesis, on POWER as bytes of an address. Proved for texts without conversions and for WARN and DEBUG; the log is assumed to have room (C03)."
  },
  {
   "property": "C184",
   "status": "partial",
   "theorems": [
    "Verif.Moving.C184_first_partial",
    "Verif.Moving.C184_missed",
    "Verif.Moving.C184_gives_up"
   ],
   "note": "False in general (C184_missed, C184_gives_up): only the main thread is stopped, so a library can be unloaded while the tool is at it, and all libraries behind it are missed. Proved for the libraries in front of all that come and go, such as a preloaded libpulp."
  },
  {
   "property": "C185",
   "status": "partial",
   "theorems": [
    "Verif.Moment.C185_one_moment",
    "Verif.Moment.C185_in_force_partial",
    "Verif.Moment.C185_can_be_made",
    "Verif.Moment.C185_killed"
   ],
   "note": "That the shown list is the list of one moment, with no tool inside, is proved for all executions. That it is in force then is proved if no tool is killed inside; it is false otherwise (C185_killed)."
  },
  {
   "property": "C186",
   "status": "proved",
   "theorems": [
    "Verif.Setup.C186_bounded",
    "Verif.Setup.C186_comes_to_end",
    "Verif.Setup.C186_each_once"
   ],
   "note": "For all results and orders of the jobs."
  },
  {
   "property": "C187",
   "status": "partial",
   "theorems": [
    "Verif.Setup.C187_others_done_partial",
    "Verif.Setup.C187_unnoticed",
    "Verif.Setup.C187_success_after_failures"
   ],
   "note": "False: no failure is ever noticed (negation proved for all runs). What holds: all other libraries are tried."
  },
  {
   "property": "C188",
   "status": "partial",
   "theorems": [
    "Verif.Setup.C188_which",
    "Verif.Setup.C188_exact_partial",
    "Verif.Setup.C188_not_found",
    "Verif.Setup.C188_longer_name"
   ],
   "note": "False in general: longer names that end in the one asked for are taken. Which packages are taken is characterised exactly."
  },
  {
   "property": "C189",
   "status": "proved",
   "theorems": [
    "Verif.Setup.C189_parts",
    "Verif.Setup.C189_distinct"
   ],
   "note": "For packages with a version and a release."
  },
  {
   "property": "C190",
   "status": "partial",
   "theorems": [
    "Verif.Setup.C190_age_partial",
    "Verif.Setup.C190_old_kept"
   ],
   "note": "False in general: times are compared as texts. Holds for times of the same number of digits."
  },
  {
   "property": "C191",
   "status": "partial",
   "theorems": [
    "Verif.Setup.C191_described_partial",
    "Verif.Setup.C191_no_debuginfo_partial",
    "Verif.Setup.C191_not_livepatchable",
    "Verif.Setup.C191_described_alone_partial"
   ],
   "note": "False for libraries that are not live-patchable. The rest holds, through the parser of the tool."
  },
  {
   "property": "C192",
   "status": "partial",
   "theorems": [
    "Verif.Resume.C192_goes_on_partial",
    "Verif.Resume.C192_goes_on_by_restart_partial",
    "Verif.Resume.C192_sees_error",
    "Verif.Resume.C192_not_in_call"
   ],
   "note": "False of the code for system calls that the kernel does not restart; the negation is proved for every error code but the four that mean a restart. That stops without a signal interrupt such calls is a fact about Linux, in the trusted base."
  },
  {
   "property": "C193",
   "status": "partial",
   "theorems": [
    "Verif.Resume.C193_registers_partial",
    "Verif.Resume.C193_vectors_partial",
    "Verif.Resume.C193_vectors_spoilt",
    "Verif.Resume.C193_other_threads"
   ],
   "note": "False of the code for vector and floating-point registers; the negation is proved for every function that changes them."
  },
  {
   "property": "C194",
   "status": "partial",
   "theorems": [
    "Verif.Resume.C194_entered_well_partial",
    "Verif.Resume.C194_direction_set"
   ],
   "note": "False of the code if the interrupted thread has the direction flag set; the negation is proved for every such thread."
  },
  {
   "property": "C195",
   "status": "partial",
   "theorems": [
    "Verif.Resume.C195_errno_partial",
    "Verif.Resume.C195_errno_of_function"
   ],
   "note": "False of the code; the negation is proved for every function that leaves an error number."
  },
  {
   "property": "C196",
   "status": "proved",
   "theorems": [
    "Verif.PpcEntry.C196_called_once"
   ],
   "note": "Functions are assumed to keep to the ABI (stack pointer, caller's frame) when entered as it requires."
  },
  {
   "property": "C197",
   "status": "proved",
   "theorems": [
    "Verif.PpcEntry.C197_stack_untouched"
   ],
   "note": "Likewise."
  },
  {
   "property": "C198",
   "status": "proved",
   "theorems": [
    "Verif.PpcEntry.C198_as_if_stopped",
    "Verif.PpcEntry.C198_call_goes_on",
    "Verif.PpcEntry.C198_not_in_call",
    "Verif.PpcEntry.C198_call_succeeded"
   ],
   "note": "General registers only: vector registers are not saved on POWER either, see C193."
  },
  {
   "property": "C199",
   "status": "partial",
   "theorems": [
    "Verif.Endless.C199_inspect_partial",
    "Verif.Endless.C199_patches_partial",
    "Verif.Endless.C199_notes_partial",
    "Verif.Endless.C199_inspect_never",
    "Verif.Endless.C199_patches_never",
    "Verif.Endless.C199_notes_never"
   ],
   "note": "False of the code: a link map or a list of live patches that leads back to itself, or a note whose lengths add up to 0 in 32 bits, is followed for ever (C199_*_never). Proved: these are the only cases; in all others reading ends, whatever is in memory."
  },
  {
   "property": "C200",
   "status": "partial",
   "theorems": [
    "Verif.Ehdr.C200_program_partial",
    "Verif.Ehdr.C200_long_name",
    "Verif.Ehdr.C200_blank",
    "Verif.Ehdr.C200_other_file"
   ],
   "note": "False of the code: programs with names of more than 15 bytes or in directories with a blank in their name are not found, and another file may be taken for the program. Proved otherwise: names of at most 15 bytes and no blanks in paths."
  },
  {
   "property": "C201",
   "status": "partial",
   "theorems": [
    "Verif.Ehdr.C201_defined_partial",
    "Verif.Ehdr.C201_undefined"
   ],
   "note": "False of the code: with a path that has a part starting with a blank the tool reads bin_name[4294967295]. Proved for all lists of mappings without such paths."
  },
  {
   "property": "C202",
   "status": "partial",
   "theorems": [
    "Verif.Version.C202_version_partial",
    "Verif.Version.C202_order",
    "Verif.Version.C202_suffix"
   ],
   "note": "Holds of texts of three numbers below 65536 whose words can be read. False with a suffix: the version is then 0."
  },
  {
   "property": "C203",
   "status": "partial",
   "theorems": [
    "Verif.Version.C203_defined_partial",
    "Verif.Version.C203_long_text"
   ],
   "note": "Defined exactly if the text ends within 32 bytes and its words can be read; false of longer texts, as the result of read_string_allocated is not looked at."
  },
  {
   "property": "C204",
   "status": "partial",
   "theorems": [
    "Verif.PpcMidway.C204_thread_continues_partial",
    "Verif.PpcMidway.C204_always_a_version",
    "Verif.PpcMidway.C204_revert_all_stale"
   ],
   "note": "Proved for requests that add or remove at most one version of the function each. False otherwise: revert-all of two patches of a function leaves the older one in the stub, where a stopped thread continues (execution given); C204_always_a_version is what holds for all requests."
  },
  {
   "property": "C205",
   "status": "proved",
   "theorems": [
    "Verif.PowerFlow.C205_calls_follow_descriptions"
   ],
   "note": "The POWER counterpart of C115. The 44 bytes of the stub are a parameter; C196 and C197 and C198 have what their execution does."
  },
  {
   "property": "C206",
   "status": "proved",
   "theorems": [
    "Verif.PowerFlow.C206_references_point_at_variables"
   ],
   "note": "The POWER counterpart of C116."
  },
  {
   "property": "C207",
   "status": "proved",
   "theorems": [
    "Verif.PowerFlow.C207_accepted",
    "Verif.PowerFlow.C207_revert_accepted"
   ],
   "note": "The POWER counterpart of C117: 96 bytes of the queue for a function, 40 for a reference."
  },
  {
   "property": "C208",
   "status": "partial",
   "theorems": [
    "Verif.Loadtime.C208_times_shown_partial",
    "Verif.Loadtime.C208_suffix"
   ],
   "note": "C208_suffix is the general negation for versions with a suffix. C208_times_shown_partial has what holds of versions a.b.c; missing are versions that cannot be read (C203) and objects without symbols (C98)."
  },
  {
   "property": "C209",
   "status": "partial",
   "theorems": [
    "Verif.Torn.C209_first_partial",
    "Verif.Torn.C209_back_partial",
    "Verif.Torn.C209_near_partial",
    "Verif.Torn.C209_done",
    "Verif.Torn.C209_torn"
   ],
   "note": "Proved for functions patched for the first time, for replacements taken back, and for replacements in the same aligned 64 KiB. The rest is false of the code: C209_torn gives, for every two other replacements, the request at which ending the tool sends calls to neither."
  },
  {
   "property": "C210",
   "status": "partial",
   "theorems": [
    "Verif.Torn.Power.C210_first_partial",
    "Verif.Torn.Power.C210_back_partial",
    "Verif.Torn.Power.C210_near_partial",
    "Verif.Torn.Power.C210_done",
    "Verif.Torn.Power.C210_torn"
   ],
   "note": "Proved for functions patched for the first time, for replacements taken back, and for replacements in the same aligned 4 GiB. The rest is false of the code: C210_torn gives, for every two other replacements, the request at which ending the tool sends calls to neither."
  },
  {
   "property": "C211",
   "status": "partial",
   "theorems": [
    "Verif.Early.C211_functions_first",
    "Verif.Early.C211_revert_partial",
    "Verif.Early.C211_end_partial"
   ],
   "note": "The full statement is false of the code: C211_functions_first shows, for every successful apply in every history, a moment at which all functions are redirected and no reference is set. What holds: references stay during a revert, and the end of the queue gives the state of C18 and C50."
  },
  {
   "property": "C212",
   "status": "partial",
   "theorems": [
    "Verif.Power.Early.C212_functions_first",
    "Verif.Power.Early.C212_revert_partial",
    "Verif.Power.Early.C212_end_partial"
   ],
   "note": "The full statement is false of the code on POWER as well: C212_functions_first shows the moment in general. What holds: references stay during a revert, and the end of the queue gives the state of C161 and C164."
  },
  {
   "property": "C213",
   "status": "partial",
   "theorems": [
    "Verif.Refs.C213_address_partial",
    "Verif.Refs.C213_thread_partial",
    "Verif.Refs.C213_torn",
    "Verif.Refs.C213_done"
   ],
   "note": "The full statement is false of the code for thread-local variables: C213_torn shows, for every such reference, a request at which the tool may end and the reference is neither right nor as before. C213_thread_partial shows that this is the only other outcome; for ordinary variables the statement holds. Assumes that a request that ends the tool has written nothing of its word."
  },
  {
   "property": "C214",
   "status": "proved",
   "theorems": [
    "Verif.Abandoned.C214_nothing_yet",
    "Verif.Abandoned.C214_next_makes_changes",
    "Verif.Abandoned.C214_then_never",
    "Verif.Power.Abandoned.C214_nothing_yet",
    "Verif.Power.Abandoned.C214_next_makes_changes",
    "Verif.Power.Abandoned.C214_then_never"
   ],
   "note": "Both architectures. That nothing changes any more is for histories of well formed requests (all of them decodable); the rest is for every state."
  },
  {
   "property": "C215",
   "status": "partial",
   "theorems": [
    "Verif.Power.Run.C215_success_in_force_partial",
    "Verif.Power.Run.C215_patched_partial",
    "Verif.Power.Run.C215_unknown_queue",
    "Verif.Power.Run.C215_unknown_queue_never"
   ],
   "note": "False when the tool does not know the address of the queue (C215_unknown_queue_never, for every process and patch) and when a single write fails in certain ways (C07). Proved for all other failures."
  },
  {
   "property": "C216",
   "status": "proved",
   "theorems": [
    "Verif.Power.Run.C216_all_or_nothing",
    "Verif.Power.Run.C216_nothing_left"
   ],
   "note": "Unless libpulp has recorded an internal error; failing single writes are excluded (C06, C07)."
  },
  {
   "property": "C217",
   "status": "partial",
   "theorems": [
    "Verif.Power.Run.C217_failure_changes_nothing_partial",
    "Verif.Power.Run.C217_failed_but_in_force",
    "Verif.Power.Run.C217_never_again",
    "Verif.Power.Run.C217_failed_in_force_always"
   ],
   "note": "False when the queue cannot be reset after it was executed (C217_failed_in_force_always: after every history, for every patch that libpulp accepts and any number of retries). Proved for runs without failures after libpulp was asked."
  },
  {
   "property": "C218",
   "status": "proved",
   "theorems": [
    "Verif.Power.Crew.C218_one_inside",
    "Verif.Power.Crew.C218_one_by_one",
    "Verif.Power.Crew.C218_calls",
    "Verif.Power.Crew.C218_gets_through",
    "Verif.Power.Crew.C218_killed",
    "Verif.Power.Crew.C218_killed_always"
   ],
   "note": "For all interleavings. C218_killed_always: the condition on kills is needed for every process, history and request that changes anything."
  },
  {
   "property": "C219",
   "status": "proved",
   "theorems": [
    "Verif.Power.Throng.C219_running_threads",
    "Verif.Power.Throng.C219_nothing_left"
   ],
   "note": "Unless libpulp has recorded an internal error; failing single writes and kills in the middle of an action are excluded in the statement."
  },
  {
   "property": "C220",
   "status": "partial",
   "theorems": [
    "Verif.Power.Run.Series.C220_replaced_partial",
    "Verif.Power.Run.Series.C220_failure",
    "Verif.Power.Run.Series.C220_left_without"
   ],
   "note": "False in general, as C147: a live patch that depends on one in force for the same library always fails and leaves the library without patches (C220_left_without). True of runs that report success; when failure is reported either nothing has changed or all patches of the library are gone (C220_failure). The tool is assumed to know where the queue is."
  },
  {
   "property": "C221",
   "status": "partial",
   "theorems": [
    "Verif.Power.Run.Series.C221_all_in_force_partial",
    "Verif.Power.Run.Series.C221_last_only"
   ],
   "note": "True without --revert-all. False with it: each live patch reverts those applied before it in the same run, so that only the last one for the library is in force although success is reported for all (C221_last_only)."
  },
  {
   "property": "C222",
   "status": "partial",
   "theorems": [
    "Verif.Power.Run.Series.C222_in_order_partial",
    "Verif.Power.Run.Series.C222_again",
    "Verif.Power.Run.Series.C222_wrong_order",
    "Verif.Power.Run.Series.C222_last_wins"
   ],
   "note": "False in general: a live patch found before one that it depends on is refused (C222_wrong_order), and of two live patches for the same function the one found last is in force (C222_last_wins). True when dependencies are found first; and in any order all are in force after as many runs as there are live patches (C222_again)."
  },
  {
   "property": "C223",
   "status": "partial",
   "theorems": [
    "Verif.Power.Glance.C223_one_moment",
    "Verif.Power.Glance.C223_in_force_partial",
    "Verif.Power.Glance.C223_can_be_made",
    "Verif.Power.Glance.C223_killed"
   ],
   "note": "That the shown list is the list of one moment, with no tool inside, is proved for all executions. That it is in force then is proved if no tool is killed inside; it is false otherwise (C223_killed)."
  },
  {
   "property": "C224",
   "status": "partial",
   "theorems": [
    "Verif.Power.Run.Slain.C224_unaffected_partial",
    "Verif.Power.Run.Slain.C224_halted",
    "Verif.Power.Run.Slain.C224_goes_on_partial",
    "Verif.Power.Run.Slain.C224_sigcont_partial",
    "Verif.Power.Run.Slain.C224_lost"
   ],
   "note": "False as stated, as C142; proved: nothing happens if the tool holds no thread (C224_unaffected_partial). Otherwise, if threads take the signals they were stopped for, the process never is as before unless somebody helps (C224_halted); if the kernel forgets them it goes on, provided that all threads have stopped and the main one has its own registers (C224_goes_on_partial). SIGCONT helps unless the main thread had been given the registers of a routine (C224_sigcont_partial); if it had, it never runs the program again and the process can die from any later moment (C224_lost). Facts about the kernel are from ptrace(2)."
  },
  {
   "property": "C225",
   "status": "partial",
   "theorems": [
    "Verif.Power.Run.Slain.C225_whole_partial",
    "Verif.Power.Run.Slain.C225_sigcont",
    "Verif.Power.Run.Slain.C225_forgotten",
    "Verif.Power.Run.Slain.C225_any_part"
   ],
   "note": "Proved if threads take the signals they were stopped for and nobody sends SIGCONT, or if the tool was not in the middle of a queue when it was killed (C225_whole_partial); false otherwise: for every request and every number of its changes, threads can run with these and without the others (C225_any_part; C225_sigcont and C225_forgotten are cases in which one of two functions is patched)."
  },
  {
   "property": "C226",
   "status": "partial",
   "theorems": [
    "Verif.Power.Gone.C226_reload_unnoticed",
    "Verif.Power.Gone.C226_revert_repairs"
   ],
   "note": "False of the code as on x86-64 (C159): libpulp does not notice that a library was unloaded and loaded again; the check still answers applied, and a new apply is refused as already applied, while calls go to the unpatched function. Reverting first repairs it if the library came back at the same place."
  },
  {
   "property": "C227",
   "status": "partial",
   "theorems": [
    "Verif.Power.Gone.C227_unloaded_crashes",
    "Verif.Power.Gone.C227_overwrites_other_code",
    "Verif.Power.Gone.C227_overwrites_before",
    "Verif.Power.Gone.C227_other_code_kept",
    "Verif.Power.Gone.C227_safe_partial"
   ],
   "note": "False of the code: a later revert reads at addresses of functions once patched (crash if unmapped). On POWER it also writes the 52 bytes of the trampoline before such an address whatever is there, if another patch still replaces the function (the check for the NOP comes after the write). Proved: the code from these addresses on is kept unless it looks like an entry; safe as long as the livepatchable functions themselves stay mapped and untouched."
  },
  {
   "property": "C228",
   "status": "partial",
   "theorems": [
    "Verif.Power.Cut.C228_uncut_partial",
    "Verif.Power.Cut.C228_before_partial",
    "Verif.Power.Cut.C228_after_partial",
    "Verif.Power.Cut.C228_stuck",
    "Verif.Power.Cut.C228_earlier_instead",
    "Verif.Power.Cut.C228_wrong_patch",
    "Verif.Power.Cut.C228_twice",
    "Verif.Power.Cut.C228_undefined",
    "Verif.Power.Cut.C228_read_nothing",
    "Verif.Power.Cut.C228_read_part"
   ],
   "note": "Holds for requests that are not cut, or cut before the metadata are allocated or after the routine returned. False otherwise, as on x86: the next request works on the metadata of the cut one (earlier_instead, wrong_patch, twice, read_*), uses unset pointers (undefined), or is refused for ever when the cut was inside the allocator or the loader (stuck). Later requests after a cut between the two writes of one function are not covered."
  },
  {
   "property": "C229",
   "status": "partial",
   "theorems": [
    "Verif.Power.Cut.C229_half_patch",
    "Verif.Power.Cut.C229_between_writes_partial",
    "Verif.Power.Cut.C229_before_partial"
   ],
   "note": "False: cut between two functions, the code is that of a patch with the first functions only. Holds for cuts before the first function is replaced, and for each function by itself even if cut between the two writes for it. Cuts within a revert are not covered."
  }
 ]
}
