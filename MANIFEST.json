{
 "claims": [
  {
   "property": "C01",
   "status": "proved",
   "theorems": [
    "Verif.Props.C01_rv32i"
   ],
   "note": "Decode, operand selection and ALU composed; all operands, all encodings."
  },
  {
   "property": "C02",
   "status": "partial",
   "theorems": [
    "Verif.Props.C02_zb_partial",
    "Verif.Props.C02_zb_norotate",
    "Verif.Props.C02_rotate_by_zero_undefined"
   ],
   "note": "All Zb* instructions except rotate by 0, which the C++ evaluates with an undefined shift by 32 (proved)."
  },
  {
   "property": "C03",
   "status": "proved",
   "theorems": [
    "Verif.Props.C03_mul"
   ],
   "note": "All four multiply instructions."
  },
  {
   "property": "C04",
   "status": "proved",
   "theorems": [
    "Verif.Props.C04_div",
    "Verif.Props.C04_euclid"
   ],
   "note": "All four divide instructions incl. division by zero and overflow."
  },
  {
   "property": "C05",
   "status": "partial",
   "theorems": [
    "Verif.Props.C05_branch",
    "Verif.Props.C05_jump",
    "Verif.Props.C05_spurious_mispredict"
   ],
   "note": "Direction, next pc and absence of missed mispredictions proved; the flag is not exact (spurious mispredict witness)."
  },
  {
   "property": "C06",
   "status": "proved",
   "theorems": [
    "Verif.Props.C06_amo",
    "Verif.Props.C06_store_load"
   ],
   "note": "AMO result, addresses of loads/stores/AMOs."
  },
  {
   "property": "C07",
   "status": "proved",
   "theorems": [
    "Verif.Props.C07_layout",
    "Verif.Props.C07_roundtrip",
    "Verif.Props.C07_even"
   ],
   "note": "Bit-level layout, round trip, evenness."
  },
  {
   "property": "C08",
   "status": "partial",
   "theorems": [
    "Verif.Props.C08_dest",
    "Verif.Props.C08_src",
    "Verif.Props.C08_illegal_iff",
    "Verif.Props.C08_illegal_partial",
    "Verif.Props.C08_writes_rd",
    "Verif.Props.C08_reserved_not_trapped"
   ],
   "note": "Register claims proved for all words; 'every unsupported word traps' is false for reserved encodings inside known opcodes (witness)."
  },
  {
   "property": "C09",
   "status": "proved",
   "theorems": [
    "Verif.Props.C09_alu",
    "Verif.Props.C09_pc",
    "Verif.Props.C09_branch",
    "Verif.Props.C09_reserved_differ"
   ],
   "note": "Exact agreement on all supported encodings (values, pc); reserved encodings differ (witness)."
  },
  {
   "property": "C10",
   "status": "proved",
   "theorems": [
    "Verif.Props.C10_distinct",
    "Verif.Props.C10_free_iff_unowned",
    "Verif.Props.C10_offered_fresh",
    "Verif.Props.C10_count"
   ],
   "note": "Inductive invariant over all cycles; any number of tags, any decode width."
  },
  {
   "property": "C11",
   "status": "proved",
   "theorems": [
    "Verif.Props.C11_kill_exact",
    "Verif.Props.C11_no_kill",
    "Verif.Props.C11_window"
   ],
   "note": "Squash set = younger instructions, for every reachable state."
  },
  {
   "property": "C12",
   "status": "proved",
   "theorems": [
    "Verif.Props.C12_partition",
    "Verif.Props.C12_partition_committed",
    "Verif.Props.C12_alloc_from_free",
    "Verif.Props.C12_free_count",
    "Verif.Props.C12_x0",
    "Verif.Props.C12_no_assert"
   ],
   "note": "Every reachable state of the rename stage closed with its environment (RenWindow.Valid: no retirement in a misprediction cycle, fresh tags)."
  },
  {
   "property": "C13",
   "status": "proved",
   "theorems": [
    "Verif.Props.C13_dataflow",
    "Verif.Props.C13_map"
   ],
   "note": "Program order = committed history ++ in-flight window ++ earlier slots of the group."
  },
  {
   "property": "C14",
   "status": "proved",
   "theorems": [
    "Verif.Props.C14_map",
    "Verif.Props.C14_free"
   ],
   "note": ""
  },
  {
   "property": "C15",
   "status": "proved",
   "theorems": [
    "Verif.Props.C15_map",
    "Verif.Props.C15_free"
   ],
   "note": ""
  },
  {
   "property": "C16",
   "status": "proved",
   "theorems": [
    "Verif.Props.C16_retire_oldest",
    "Verif.Props.C16_queue",
    "Verif.Props.C16_flush",
    "Verif.Props.C16_program_order",
    "Verif.Props.C16_conservation"
   ],
   "note": "environment: RobQueue.Valid (dispatch respects index, ready and misprediction)"
  },
  {
   "property": "C17",
   "status": "proved",
   "theorems": [
    "Verif.Props.C17_complete",
    "Verif.Props.C17_precise",
    "Verif.Props.C17_no_retire_on_mispredict",
    "Verif.Props.C17_cause"
   ],
   "note": "an interrupted instruction is reported on the commit port without being complete (C39_interrupt); completeness is stated for cycles without interrupt request"
  },
  {
   "property": "C18",
   "status": "proved",
   "theorems": [
    "Verif.Props.C18_truncate",
    "Verif.Props.C18_empty",
    "Verif.Props.C18_full"
   ],
   "note": ""
  },
  {
   "property": "C19",
   "status": "partial",
   "theorems": [
    "Verif.Props.C19_partial",
    "Verif.Props.C19_fence_ungated",
    "Verif.Props.C19_fence_negation"
   ],
   "note": "holds for FENCE.I and SFENCE.VMA; false for plain FENCE (forward-progress fallback, Rob.cpp:320-335), witness proved"
  },
  {
   "property": "C20",
   "status": "proved",
   "theorems": [
    "Verif.Props.C20_fifo",
    "Verif.Props.C20_no_assert",
    "Verif.Props.C20_offered"
   ],
   "note": ""
  },
  {
   "property": "C21",
   "status": "proved",
   "theorems": [
    "Verif.Props.C21_lookup",
    "Verif.Props.C21_count",
    "Verif.Props.C21_commit"
   ],
   "note": "environment: FetchWindow.Valid; the marking of the redirecting branch as last (Rob.cpp:647-653) is part of the closed system"
  },
  {
   "property": "C22",
   "status": "proved",
   "theorems": [
    "Verif.Props.C22_broadcast",
    "Verif.Props.C22_runs",
    "Verif.Props.C22_none_missed",
    "Verif.Props.C22_addressing"
   ],
   "note": "environment: IssueWindow.Valid; wake-up matrix modelled as bits, word addressing shown injective"
  },
  {
   "property": "C23",
   "status": "partial",
   "theorems": [
    "Verif.Props.C23_sound",
    "Verif.Props.C23_exclusive",
    "Verif.Props.C23_conservation",
    "Verif.Props.C23_oldest_partial",
    "Verif.Props.C23_work_conserving",
    "Verif.Props.C23_passed_over_negation"
   ],
   "note": "the last clause is false as stated: C23_passed_over_negation; C23_oldest_partial proves it up to refusal by a functional unit"
  },
  {
   "property": "C24",
   "status": "proved",
   "theorems": [
    "Verif.Props.C24_in_order",
    "Verif.Props.C24_all_or_nothing",
    "Verif.Props.C24_room",
    "Verif.Props.C24_serial",
    "Verif.Props.C24_blocked",
    "Verif.Props.C24_progress"
   ],
   "note": "All reachable states, any width and limits. C24_progress adds the exact condition under which the oldest instruction goes."
  },
  {
   "property": "C25",
   "status": "partial",
   "theorems": [
    "Verif.Props.C25_in_order_partial",
    "Verif.Props.C25_announced_partial",
    "Verif.Props.C25_pipelined_latency_partial",
    "Verif.Props.C25_capacity_partial",
    "Verif.Props.C25_exactly_once_partial",
    "Verif.Props.ExuRun.C25_operation_lost"
   ],
   "note": "Proved for branch masks wider than 16 bits, or when every operation in flight at a full flush depends on an unresolved branch. With the shipped 16-bit masks the claim is false: C25_operation_lost exhibits a division that vanishes after a full flush."
  },
  {
   "property": "C26",
   "status": "partial",
   "theorems": [
    "Verif.Props.C26_bypass",
    "Verif.Props.C26_latest",
    "Verif.Props.C26_unused",
    "Verif.Props.C26_x0_stored",
    "Verif.Props.C26_x0_partial",
    "Verif.Props.C26_x0_recovers",
    "Verif.Props.PrfRun.C26_x0_polluted"
   ],
   "note": "The x0 half is false: a load with destination x0 is bypassed under physical register 0 for one cycle (C26_x0_polluted). Proved when nothing in flight claims to write register 0; the rest is proved in full."
  },
  {
   "property": "C27",
   "status": "proved",
   "theorems": [
    "Verif.Props.C27_views_consistent"
   ],
   "note": "every reachable state of the CSR file"
  },
  {
   "property": "C28",
   "status": "partial",
   "theorems": [
    "Verif.Props.C28_exception_to_M_partial",
    "Verif.Props.C28_exception_to_S",
    "Verif.Props.C28_interrupt_to_M_partial",
    "Verif.Props.C28_interrupt_to_S_partial",
    "Verif.Props.C28_vector_direct_partial",
    "Verif.Props.C28_vectored_interrupt",
    "Verif.Props.C28_mret",
    "Verif.Props.C28_sret",
    "Verif.Props.C28_machine_round_trip",
    "Verif.Props.C28_supervisor_round_trip",
    "Verif.Props.CsrRun.C28_to_less_privileged",
    "Verif.Props.CsrRun.C28_machine_ecall_cause",
    "Verif.Props.CsrRun.C28_vectored_exception_misaligned",
    "Verif.Props.CsrRun.C28_interrupt_order",
    "Verif.Props.CsrRun.C28_delegated_machine_interrupt_code"
   ],
   "note": "entry, return and round trip proved; the code violates the claim in five situations, each proved with a reachable witness and excluded by a hypothesis"
  },
  {
   "property": "C29",
   "status": "partial",
   "theorems": [
    "Verif.Props.C29_exact",
    "Verif.Props.C29_taken_iff_partial",
    "Verif.Props.CsrRun.C29_undelegated"
   ],
   "note": "exact characterisation proved; equals the architecture's rule when supervisor interrupts are delegated, false otherwise (witness)"
  },
  {
   "property": "C30",
   "status": "partial",
   "theorems": [
    "Verif.Props.C30_no_effect_before_commit",
    "Verif.Props.C30_write_at_commit_partial",
    "Verif.Props.C30_request",
    "Verif.Props.CsrRun.C30_squashed_write_applied"
   ],
   "note": "no effect before commit and correct effect at commit proved; squashed writes can be performed later (witness)"
  },
  {
   "property": "C31",
   "status": "partial",
   "theorems": [
    "Verif.Props.C31_translate_partial",
    "Verif.Props.C31_data",
    "Verif.Props.C31_allowed",
    "Verif.Props.MmuRun.C31_violated",
    "Verif.Props.MmuRun.C31_fix"
   ],
   "note": "Full for loads and stores; for fetches all cases except supervisor fetch through a user superpage with SUM=1, where the code is proved to violate the claim."
  },
  {
   "property": "C32",
   "status": "proved",
   "theorems": [
    "Verif.Props.C32_range",
    "Verif.Props.C32_read",
    "Verif.Props.C32_write",
    "Verif.Props.C32_copy_to",
    "Verif.Props.C32_copy_from",
    "Verif.Props.C32_init",
    "Verif.Props.C32_last_value",
    "Verif.Props.C32_read_after_write"
   ],
   "note": "refinement to a byte memory for every history; no access leaves the RAM block"
  },
  {
   "property": "C33",
   "status": "proved",
   "theorems": [
    "Verif.Props.C33_ref_store",
    "Verif.Props.C33_ref_store_misaligned",
    "Verif.Props.C33_ref_load",
    "Verif.Props.C33_ref_load_misaligned",
    "Verif.Props.C33_round_trip",
    "Verif.Props.C33_core_load",
    "Verif.Props.C33_core_store",
    "Verif.Props.RefMemRun.C33_timer_byte_store"
   ],
   "note": "Reference instructions and the core's lane helpers against one byte-memory specification."
  },
  {
   "property": "C34",
   "status": "proved",
   "theorems": [
    "Verif.Props.C34_sc_iff",
    "Verif.Props.C34_sc_effect",
    "Verif.Props.C34_sc_ends",
    "Verif.Props.C34_lr",
    "Verif.Props.RefMemRun.C34_partial_store_keeps_reservation",
    "Verif.Props.RefMemRun.C34_failing_sc_sends_character",
    "Verif.Props.RefMemRun.C34_lr_repeats_output"
   ],
   "note": "Histories of any length; the three RefMemRun theorems record device-register and sub-word behaviour outside the claim."
  },
  {
   "property": "C35",
   "status": "partial",
   "theorems": [
    "Verif.Props.C35_zero",
    "Verif.Props.C35_or",
    "Verif.Props.C35_and",
    "Verif.Props.C35_xor",
    "Verif.Props.C35_not",
    "Verif.Props.C35_shl",
    "Verif.Props.C35_shr",
    "Verif.Props.C35_shift_negative",
    "Verif.Props.C35_unique",
    "Verif.Props.C35_eq",
    "Verif.Props.C35_bool",
    "Verif.Props.C35_assign_partial",
    "Verif.Props.C35_padding_zero",
    "Verif.Props.C35_negative_not_extended"
   ],
   "note": "every operation for every width; assignment of negative scalars zero-extends (witness)"
  },
  {
   "property": "C36",
   "status": "proved",
   "theorems": [
    "Verif.Props.C36_clog2",
    "Verif.Props.C36_clog2_undefined",
    "Verif.Props.C36_count_width",
    "Verif.Props.C36_index_width",
    "Verif.Props.C36_power_of_two",
    "Verif.Props.C36_div_round"
   ],
   "note": "counts up to 2^63 (beyond that clog2 is undefined behaviour, proved)"
  },
  {
   "property": "C37",
   "status": "proved",
   "theorems": [
    "Verif.Props.C37_age",
    "Verif.Props.C37_total"
   ],
   "note": ""
  },
  {
   "property": "C38",
   "status": "proved",
   "theorems": [
    "Verif.Props.C38_resolved_mask",
    "Verif.Props.C38_recovers_iff",
    "Verif.Props.C38_oldest"
   ],
   "note": "Age is the position in any reachable reorder buffer (composes with C37)."
  },
  {
   "property": "C39",
   "status": "proved",
   "theorems": [
    "Verif.Props.C39_progress",
    "Verif.Props.C39_interrupt"
   ],
   "note": ""
  },
  {
   "property": "C40",
   "status": "proved",
   "theorems": [
    "Verif.Props.C40_positions",
    "Verif.Props.C40_uses",
    "Verif.Props.C40_rob_slot"
   ],
   "note": "ROB slot theorem assumes a power-of-two bank count, which make_rob_idx relies on (line*banks | bank)."
  },
  {
   "property": "C41",
   "status": "proved",
   "theorems": [
    "Verif.Props.C41_stream",
    "Verif.Props.C41_flush"
   ],
   "note": "Runs of any length; instructions identified by everything except the shrinking branch mask."
  },
  {
   "property": "C42",
   "status": "proved",
   "theorems": [
    "Verif.Props.C42_complete_iff"
   ],
   "note": "All instructions but sc.w, as the property says."
  },
  {
   "property": "C43",
   "status": "proved",
   "theorems": [
    "Verif.Props.C43_operands",
    "Verif.Props.C43_no_x0_destination"
   ],
   "note": "Event-log formulation; the assumption on rename's instructions is discharged for the decoder by C43_no_x0_destination."
  },
  {
   "property": "C44",
   "status": "proved",
   "theorems": [
    "Verif.Props.C44_handed_over_once",
    "Verif.Props.C44_supported",
    "Verif.Props.C44_one_winner"
   ],
   "note": ""
  },
  {
   "property": "C45",
   "status": "partial",
   "theorems": [
    "Verif.Props.C45_flush_empties_partial",
    "Verif.Props.ExuRun.C45_zombie_completes"
   ],
   "note": "False for the shipped configuration (16 branch tags: integer promotion makes the full-flush test always false); witness C45_zombie_completes. Proved for wider masks or non-empty branch dependence."
  },
  {
   "property": "C46",
   "status": "proved",
   "theorems": [
    "Verif.Props.C46_fp_latency_agrees",
    "Verif.Props.C46_iter_announces_iff",
    "Verif.Props.C46_iter_in_time",
    "Verif.Props.C46_iter_no_overflow",
    "Verif.Props.C46_mul_announces_iff",
    "Verif.Props.C46_mul_no_overflow"
   ],
   "note": "For one unit per class, as in every shipped configuration; full flushes under the condition of C45."
  },
  {
   "property": "C47",
   "status": "partial",
   "theorems": [
    "Verif.Props.C47_bus_partial",
    "Verif.Props.WakeRun.C47_collision"
   ],
   "note": "False in the shipped configuration: divider and floating-point unit share port 1 and therefore one announcement channel; C47_collision reaches a state where the divider's announcement is lost. Proved when the announcing units are on different ports."
  },
  {
   "property": "C48",
   "status": "proved",
   "theorems": [
    "Verif.Props.C48_available",
    "Verif.Props.C48_load_announced",
    "Verif.Props.C48_load_readable"
   ],
   "note": "CSR results excluded (their broadcast precedes the CSR read; CSR commits flush the pipeline). Full flushes under the condition of C45."
  },
  {
   "property": "C49",
   "status": "partial",
   "theorems": [
    "Verif.Props.C49_write_frame",
    "Verif.Props.C49_read_back",
    "Verif.Props.C49_addressing",
    "Verif.Props.C49_no_privilege_check",
    "Verif.Props.CsrRun.C49_user_writes_machine_registers"
   ],
   "note": "addressing, frame and value proved; there is no access check at all (witness)"
  },
  {
   "property": "C50",
   "status": "proved",
   "theorems": [
    "Verif.Props.C50_amo",
    "Verif.Props.C50_misaligned"
   ],
   "note": ""
  },
  {
   "property": "C51",
   "status": "proved",
   "theorems": [
    "Verif.Props.C51_cache_iff",
    "Verif.Props.C51_forward",
    "Verif.Props.C51_wraps_at_top"
   ],
   "note": "All queue contents and aligned accesses not touching the last word of the address space; C51_wraps_at_top shows why that word is excluded (32-bit address arithmetic wraps)."
  },
  {
   "property": "C52",
   "status": "proved",
   "theorems": [
    "Verif.Props.C52_no_assertion",
    "Verif.Props.C52_positions",
    "Verif.Props.C52_trap_unreported_aborts"
   ],
   "note": "Closed system with dispatch, commit, TLB, cache interface. C52_trap_unreported_aborts: when the assumption that only reported stores are committed is dropped (a trap at an unreported store) the commit assertion fails."
  },
  {
   "property": "C53",
   "status": "partial",
   "theorems": [
    "Verif.Props.C53_load_value_partial",
    "Verif.Props.C53_load_value_plain",
    "Verif.Props.C53_not_full",
    "Verif.Props.C53_failed_sc",
    "Verif.Props.C53_cancelled_store"
   ],
   "note": "Full property LoadsInOrder is false (C53_not_full): forwarding from a failed store-conditional or a cancelled store. Proved for every other load, and in full for executions without store-conditionals and without traps at stores."
  },
  {
   "property": "C54",
   "status": "proved",
   "theorems": [
    "Verif.Props.C54_memory",
    "Verif.Props.C54_drained"
   ],
   "note": "All executions of the closed system."
  },
  {
   "property": "C55",
   "status": "proved",
   "theorems": [
    "Verif.Props.C55_never_cached",
    "Verif.Props.C55_device_load",
    "Verif.Props.C55_device_store",
    "Verif.Props.C55_timer_bytes",
    "Verif.Props.C55_device_map"
   ],
   "note": "Device addresses as the unit recognises them; C55_timer_bytes: the timer registers are recognised only at their first byte."
  },
  {
   "property": "C56",
   "status": "proved",
   "theorems": [
    "Verif.Props.C56_sc_decides",
    "Verif.Props.C56_sc_needs_lr",
    "Verif.Props.C56_store_keeps_reservation",
    "Verif.Props.C56_trap_keeps_reservation"
   ],
   "note": "Findings: an ordinary store to the reserved word and a trap leave the core's reservation in place (the reference model ends it on the store)."
  },
  {
   "property": "C57",
   "status": "proved",
   "theorems": [
    "Verif.Props.C57_answers",
    "Verif.Props.C57_no_assertion"
   ],
   "note": "data cache with MSHRs and write buffer, closed with an interconnect of arbitrary timing"
  },
  {
   "property": "C58",
   "status": "partial",
   "theorems": [
    "Verif.Props.C58_load_value_partial",
    "Verif.Props.C58_stale_load"
   ],
   "note": "missing: loads answered out of a line being filled that has already taken in a store; for those the claim is false (C58_stale_load; an example shows it at the default clock ratio)"
  },
  {
   "property": "C59",
   "status": "proved",
   "theorems": [
    "Verif.Props.C59_memory",
    "Verif.Props.C59_drained"
   ],
   "note": ""
  },
  {
   "property": "C60",
   "status": "proved",
   "theorems": [
    "Verif.Props.C60_one_copy"
   ],
   "note": ""
  },
  {
   "property": "C61",
   "status": "proved",
   "theorems": [
    "Verif.Props.C61_victim",
    "Verif.Props.C61_recent"
   ],
   "note": ""
  },
  {
   "property": "C62",
   "status": "proved",
   "theorems": [
    "Verif.Props.C62_banks"
   ],
   "note": ""
  },
  {
   "property": "C63",
   "status": "proved",
   "theorems": [
    "Verif.Props.C63_lsu",
    "Verif.Props.C63_displaced"
   ],
   "note": "closed with any cache that answers each port in the next cycle"
  },
  {
   "property": "C64",
   "status": "proved",
   "theorems": [
    "Verif.Props.C64_icache",
    "Verif.Props.C64_walker",
    "Verif.Props.C64_icache_fair",
    "Verif.Props.C64_walk_fair"
   ],
   "note": ""
  },
  {
   "property": "C65",
   "status": "proved",
   "theorems": [
    "Verif.Props.C65_wakeup",
    "Verif.Props.C65_conflict",
    "Verif.Props.RouteRun.C65_lost_wakeup"
   ],
   "note": "for the simulator's wiring (one walker port); the finding shows what happens with several"
  },
  {
   "property": "C66",
   "status": "proved",
   "theorems": [
    "Verif.Props.C66_dtlb",
    "Verif.Props.C66_itlb",
    "Verif.Props.C66_ports"
   ],
   "note": "TLBs of any size, any page tables; conditions: memory unchanged since the last SFENCE.VMA (example shows it is needed) and address-space identifiers used coherently."
  },
  {
   "property": "C67",
   "status": "partial",
   "theorems": [
    "Verif.Props.C67_data",
    "Verif.Props.C67_fetch_partial",
    "Verif.Props.TlbRun.C67_fetch_violated"
   ],
   "note": "Loads and stores in full. Fetches except from user 4 MiB pages by a supervisor with SUM=1, where core and reference differ (violated)."
  },
  {
   "property": "C68",
   "status": "proved",
   "theorems": [
    "Verif.Props.C68_no_abort",
    "Verif.Props.C68_request",
    "Verif.Props.C68_nothing_left",
    "Verif.Props.C68_read_outstanding"
   ],
   "note": "All phases, flushes and cancellations."
  },
  {
   "property": "C69",
   "status": "proved",
   "theorems": [
    "Verif.Props.C69_bound",
    "Verif.Props.C69_fetch",
    "Verif.Props.C69_turns"
   ],
   "note": "Fifteen cycles at the walker, seventeen for a fetch; the data cache is assumed to hit on page-table entries (C69_fetch) or to deliver (C69_bound)."
  },
  {
   "property": "C70",
   "status": "proved",
   "theorems": [
    "Verif.Props.C70_kind",
    "Verif.Props.C70_next"
   ],
   "note": "loads, stores and instructions outside RV32IM are covered by C70_kind only"
  },
  {
   "property": "C71",
   "status": "proved",
   "theorems": [
    "Verif.Props.C71_group",
    "Verif.Props.C71_jal_never_mispredicts"
   ],
   "note": "fetch width times four at most the line size, line size a power of two"
  },
  {
   "property": "C72",
   "status": "proved",
   "theorems": [
    "Verif.Props.C72_path"
   ],
   "note": ""
  },
  {
   "property": "C73",
   "status": "proved",
   "theorems": [
    "Verif.Props.C73_no_abort",
    "Verif.Props.C73_kept"
   ],
   "note": "for an instruction cache meeting AnsOk"
  },
  {
   "property": "C74",
   "status": "proved",
   "theorems": [
    "Verif.Props.C74_words"
   ],
   "note": ""
  },
  {
   "property": "C75",
   "status": "proved",
   "theorems": [
    "Verif.Props.C75_no_stall"
   ],
   "note": ""
  },
  {
   "property": "C76",
   "status": "proved",
   "theorems": [
    "Verif.Props.C76_answers",
    "Verif.Props.C76_once"
   ],
   "note": "AnsOk is the contract the front end relies on; C76_once: what is outstanding afterwards."
  },
  {
   "property": "C77",
   "status": "proved",
   "theorems": [
    "Verif.Props.C77_words"
   ],
   "note": "Lanes (Spec/FetchMem) says it in terms of translated address, line and word."
  },
  {
   "property": "C78",
   "status": "proved",
   "theorems": [
    "Verif.Props.C78_fresh",
    "Verif.Props.C78_taken",
    "Verif.Props.C78_taken_after"
   ],
   "note": "Relative to the interconnect contract stated in DESIGN.md."
  },
  {
   "property": "C79",
   "status": "proved",
   "theorems": [
    "Verif.Props.C79_bounded"
   ],
   "note": "52 = miss detection, three stages, 16 probes of three cycles."
  },
  {
   "property": "C80",
   "status": "proved",
   "theorems": [
    "Verif.Props.C80_no_abort",
    "Verif.Props.C80_fetch"
   ],
   "note": "Front end and instruction cache composed; C76 discharges the front end's assumption."
  },
  {
   "property": "C81",
   "status": "partial",
   "theorems": [
    "Verif.Props.C81_exception_partial",
    "Verif.Props.C81_return",
    "Verif.Props.C81_interrupt_partial",
    "Verif.Props.C81_amo_double_fault",
    "Verif.Props.RefRun.C81_vectored_exception",
    "Verif.Props.RefRun.C81_illegal_delegated",
    "Verif.Props.RefRun.C81_stale_ecall",
    "Verif.Props.RefRun.C81_interrupt_at_ecall",
    "Verif.Props.RefRun.C81_unknown_opcode"
   ],
   "note": "Full for MRET and SRET. Exceptions: direct trap vectors, illegal instructions not delegated, no fetch fault right after an ECALL or a recognised interrupt; interrupts: not before an ECALL, not vector mode 2. Each exclusion has a witness where the two differ."
  },
  {
   "property": "C82",
   "status": "partial",
   "theorems": [
    "Verif.Props.C82_csr_partial",
    "Verif.Props.C82_unknown",
    "Verif.Props.RefRun.C82_csrrwi_zero",
    "Verif.Props.RefRun.C82_pending_write"
   ],
   "note": "Excluded are csrrwi with immediate 0 and writes of mip and sip; the two differ there (witnesses)."
  },
  {
   "property": "C83",
   "status": "proved",
   "theorems": [
    "Verif.Props.C83_check",
    "Verif.Props.C83_exempt",
    "Verif.Props.C83_shown",
    "Verif.Props.C83_run",
    "Verif.Props.C83_lockstep",
    "Verif.Props.C83_blind",
    "Verif.Props.C83_reservation_constant",
    "Verif.Props.C83_store_view",
    "Verif.Props.DiffRun.C83_spurious_store"
   ],
   "note": "For any reference model. C83_blind and DiffRun.C83_spurious_store record what is not compared."
  },
  {
   "property": "C84",
   "status": "proved",
   "theorems": [
    "Verif.Props.C84_classify",
    "Verif.Props.C84_compute",
    "Verif.Props.C84_instruction",
    "Verif.Props.C84_defined",
    "Verif.Props.RefRun.C84_reserved_abort",
    "Verif.Props.RefRun.C84_fused_illegal",
    "Verif.Props.RefRun.C84_format_ignored"
   ],
   "note": "SoftFloat is a parameter with IEEE comparisons and subtraction. The last three theorems record what happens outside the list."
  },
  {
   "property": "C85",
   "status": "proved",
   "theorems": [
    "Verif.Props.C85_timer",
    "Verif.Props.C85_line",
    "Verif.Props.DevRun.C85_width_ignored"
   ],
   "note": "Accesses of any width act on the whole register (the code ignores the width of timer accesses; C85_width_ignored)."
  },
  {
   "property": "C86",
   "status": "proved",
   "theorems": [
    "Verif.Props.C86_output",
    "Verif.Props.C86_claim",
    "Verif.Props.C86_pending",
    "Verif.Props.C86_plain_load",
    "Verif.Props.C86_plain_store"
   ],
   "note": ""
  },
  {
   "property": "C87",
   "status": "proved",
   "theorems": [
    "Verif.Props.C87_registers",
    "Verif.Props.C87_transfer",
    "Verif.Props.C87_status"
   ],
   "note": "About the backing memory; the transfer is not coherent with the data cache (see DESIGN findings)."
  },
  {
   "property": "C88",
   "status": "proved",
   "theorems": [
    "Verif.Props.C88_answered",
    "Verif.Props.C88_reset",
    "Verif.Props.MmioRun.C88_needs_gap"
   ],
   "note": "Accesses start as Orderly says (DESIGN, assumptions); C88_needs_gap shows the assumption is needed."
  },
  {
   "property": "C89",
   "status": "partial",
   "theorems": [
    "Verif.Props.C89_first_answer_partial",
    "Verif.Props.C89_loaded",
    "Verif.Props.MmioRun.C89_read_twice",
    "Verif.Props.MmioRun.C89_flushed_answer"
   ],
   "note": "The load gets the first answer; reading once is false (C89_read_twice), and so is that no other access gets the answer (C89_read_twice, C89_flushed_answer)."
  },
  {
   "property": "C90",
   "status": "proved",
   "theorems": [
    "Verif.Props.C90_operands",
    "Verif.Props.C90_results",
    "Verif.Props.C90_written"
   ],
   "note": "core around the rename stage; assumptions about the other units in DESIGN"
  },
  {
   "property": "C91",
   "status": "proved",
   "theorems": [
    "Verif.Props.C91_refines",
    "Verif.Props.C91_determined",
    "Verif.Props.C91_schedule_free",
    "Verif.Props.CoreRun.C91_needs_flushed"
   ],
   "note": "committed instructions are an execution of the program; witness that surviving operations (C45) would break it"
  },
  {
   "property": "C92",
   "status": "proved",
   "theorems": [
    "Verif.Props.C92_reference",
    "Verif.Props.C92_step",
    "Verif.Props.CoreRefRun.C92_needs_intact"
   ],
   "note": "end-to-end: the core of C91 with the decoder, micro-operations, functional units and byte lanes against RefCpu::exec; witness that the code-intact premise is needed"
  },
  {
   "property": "C93",
   "status": "proved",
   "theorems": [
    "Verif.Props.C93_order",
    "Verif.Props.C93_no_overflow",
    "Verif.Props.C93_stall_leaks",
    "Verif.Props.C93_wait"
   ],
   "note": "Per-bank FIFO refinement over all runs; no overflow under any behaviour of the reorder buffer."
  },
  {
   "property": "C94",
   "status": "proved",
   "theorems": [
    "Verif.Props.C94_retired",
    "Verif.Props.C94_spec",
    "Verif.Props.C94_redirect",
    "Verif.Props.C94_determined",
    "Verif.Props.C94_path"
   ],
   "note": "Global, folded and path histories of both register sets."
  },
  {
   "property": "C95",
   "status": "partial",
   "theorems": [
    "Verif.Props.C95_contents",
    "Verif.Props.C95_return",
    "Verif.Props.C95_report",
    "Verif.Props.C95_hints_sound",
    "Verif.Props.C95_indirect_call_lost",
    "Verif.Props.C95_partial",
    "Verif.Props.C95_interrupted",
    "Verif.Props.C95_called_twice"
   ],
   "note": "Stack and prediction proved; the code does not treat indirect calls and x5 as calls and pushes an interrupted call twice, both shown."
  },
  {
   "property": "C96",
   "status": "proved",
   "theorems": [
    "Verif.Props.C96_line",
    "Verif.Props.C96_banks",
    "Verif.Props.C96_faithful",
    "Verif.Props.C96_next",
    "Verif.Props.C96_direction",
    "Verif.Props.C96_tiles"
   ],
   "note": "All addresses and configurations."
  },
  {
   "property": "C97",
   "status": "partial",
   "theorems": [
    "Verif.Props.C97_partial",
    "Verif.Props.C97_out_of_step"
   ],
   "note": "Holds after a redirect until the next; false in general because an execution-time redirect drops older branches, shown by a run."
  },
  {
   "property": "C98",
   "status": "proved",
   "theorems": [
    "Verif.Props.C98_told",
    "Verif.Props.C98_learns",
    "Verif.Props.C98_unlearns",
    "Verif.Props.C98_keeps",
    "Verif.Props.C98_shared",
    "Verif.Props.C98_counters",
    "Verif.Props.C98_collision"
   ],
   "note": "Over all update logs from reset; the same-cycle restriction of retention is shown necessary."
  },
  {
   "property": "C99",
   "status": "partial",
   "theorems": [
    "Verif.Props.C99_direct_partial",
    "Verif.Props.C99_indirect_partial",
    "Verif.Props.C99_learns",
    "Verif.Props.C99_learns_indirect",
    "Verif.Props.C99_monomorphic",
    "Verif.Props.C99_keeps",
    "Verif.Props.C99_faithful",
    "Verif.Props.C99_counters",
    "Verif.Props.C99_fallthrough"
   ],
   "note": "Everything but the fall-through address, which the code gets wrong (shown for all addresses but 0)."
  },
  {
   "property": "C100",
   "status": "partial",
   "theorems": [
    "Verif.Props.C100_sources_partial",
    "Verif.Props.C100_follows",
    "Verif.Props.C100_stray"
   ],
   "note": "All sources enumerated; one of them (the miss address) is not an address of the program, shown by a run."
  },
  {
   "property": "C101",
   "status": "proved",
   "theorems": [
    "Verif.Props.C101_provider",
    "Verif.Props.C101_strong",
    "Verif.Props.C101_base",
    "Verif.Props.C101_alternative",
    "Verif.Props.C101_unanimous"
   ],
   "note": "All table contents; thresholds as a parameter with only the middle values weak."
  },
  {
   "property": "C102",
   "status": "proved",
   "theorems": [
    "Verif.Props.C102_range",
    "Verif.Props.C102_rows",
    "Verif.Props.C102_allocation",
    "Verif.Props.C102_allocates",
    "Verif.Props.C102_local",
    "Verif.Props.C102_ages",
    "Verif.Props.C102_random"
   ],
   "note": "Arbitrary metadata except for C102_allocates and C102_rows, where it is that of the prediction."
  },
  {
   "property": "C103",
   "status": "proved",
   "theorems": [
    "Verif.Props.C103_learns"
   ],
   "note": "Eight executions suffice from any trained state; other trainings interleaved."
  },
  {
   "property": "C104",
   "status": "partial",
   "theorems": [
    "Verif.Props.C104_loop_partial",
    "Verif.Props.C104_says",
    "Verif.Props.C104_other",
    "Verif.Props.C104_off_by_one",
    "Verif.Props.C104_final"
   ],
   "note": "The code violates the property: the loop table is wrong at the last taken execution and at the exit of every loop (C104_off_by_one). Proved: right before that."
  },
  {
   "property": "C105",
   "status": "partial",
   "theorems": [
    "Verif.Props.C105_events",
    "Verif.Props.C105_reference_partial",
    "Verif.Props.SysRefRun.C105_fetch_fault_first"
   ],
   "note": "The core's events are proved in full; agreement with the reference is proved for all covered events. It fails for a fetch fault with an interrupt pending (witness), and where C31, C81, C82 fail; SC, floating point and stores to devices are not covered."
  },
  {
   "property": "C106",
   "status": "proved",
   "theorems": [
    "Verif.Props.C106_components",
    "Verif.Props.C106_ordered",
    "Verif.Props.C106_conserved",
    "Verif.Props.C106_squash",
    "Verif.Props.C106_flush",
    "Verif.Props.C106_retire_in_order",
    "Verif.Props.C106_gone",
    "Verif.Props.C106_registers",
    "Verif.Props.C106_dataflow",
    "Verif.Props.C106_no_assert",
    "Verif.Props.C106_masks"
   ],
   "note": "Composition of the four stage models; the remaining environment is the instruction buffer, issue/execution timing and the branch unit's reports (Spine.Valid)."
  },
  {
   "property": "C107",
   "status": "partial",
   "theorems": [
    "Verif.Props.C107_status_partial",
    "Verif.Props.C107_fast_status_partial",
    "Verif.Props.C107_limit",
    "Verif.Props.C107_timeout",
    "Verif.Props.C107_fast_status_lost",
    "Verif.Props.C107_limit_status_lost"
   ],
   "note": "The code loses a0 in two cases, both proved: a program that ends while it is fast-forwarded (the core's reset registers are read), and an EBREAK committed in the cycle that reaches the commit limit. Mode ref always returns 0 (by definition of the model, no theorem)."
  },
  {
   "property": "C108",
   "status": "partial",
   "theorems": [
    "Verif.Props.C108_plan",
    "Verif.Props.C108_measured_partial",
    "Verif.Props.C108_mode_partial",
    "Verif.Props.C108_never_measured"
   ],
   "note": "Holds when the limit is not below the warm-up. Otherwise the main loop's limit check, which does not look at the phase, stops the run during the warm-up and nothing is measured (C108_never_measured); the default warm-up is the whole interval."
  },
  {
   "property": "C109",
   "status": "partial",
   "theorems": [
    "Verif.Props.C109_handover_partial",
    "Verif.Props.C109_timer_lost",
    "Verif.Props.C109_other_words_lost",
    "Verif.Props.C109_checkpoint_partial",
    "Verif.Props.C109_refused",
    "Verif.Props.C109_checkpoint_timer_lost"
   ],
   "note": "Registers, CSRs, privilege, reservation, program counter, RAM and the I/O windows are preserved. The timer (offset and compare) is not, so that a timer interrupt is pending at once; nor are words outside RAM and the windows (both proved). The interface refcpu_* is outside the repository and taken to consist of accessors."
  },
  {
   "property": "C110",
   "status": "proved",
   "theorems": [
    "Verif.Props.C110_refines",
    "Verif.Props.C110_operands",
    "Verif.Props.C110_results",
    "Verif.Props.C110_written",
    "Verif.Props.C110_schedule_free",
    "Verif.Props.C110_reference"
   ],
   "note": "The stages are the models of C106, unchanged; the simulation in Proofs/WholeRun shows each of their runs to be a run of the core of C90-C92 whose assumptions about order, cut, retirement and serialisation they meet. Assumed of the environment (Spec/Whole: Valid, CanRun): fetched words are the program's and follow the predicted path (JAL targets right), an operation runs after its producers and in one instant (its result may be written earlier), completion and misprediction reports are honest, a branch port reports the instruction's own wrap flag."
  },
  {
   "property": "C111",
   "status": "proved",
   "theorems": [
    "Verif.Props.C111_exact",
    "Verif.Props.C111_path",
    "Verif.Props.C111_words",
    "Verif.Props.C111_offered",
    "Verif.Props.C111_no_abort",
    "Verif.Props.C111_core",
    "Verif.Props.C111_oracle"
   ],
   "note": "Closed cycle of front end, instruction cache, hand-over, instruction buffer and fetch-target queue; the instruction cache's surroundings and the back end's moves are the environment."
  },
  {
   "property": "C112",
   "status": "partial",
   "theorems": [
    "Verif.Props.C112_partial",
    "Verif.Props.C112_lost",
    "Verif.Props.C112_deaf",
    "Verif.Props.C112_stray"
   ],
   "note": "The code drops the corrector's and the loop predictor's part of the record: C112_lost, C112_deaf and C112_stray show it and what follows. Base and tagged tables are trained as with the full record, for every branch whose loop entry and tag are not both 0."
  },
  {
   "property": "C113",
   "status": "partial",
   "theorems": [
    "Verif.Props.C113_load_partial",
    "Verif.Props.C113_drained",
    "Verif.Props.C113_no_abort",
    "Verif.Props.C113_answered",
    "Verif.Props.C113_walker_partial",
    "Verif.Props.C113_icache",
    "Verif.Props.C113_stale"
   ],
   "note": "Load/store unit, routing block, data cache and interconnect composed; C113_load_partial and C113_walker_partial exclude answers from a line being filled that has already taken in a store, for which C113_stale shows the full statement false; C113_load_partial also excludes loads forwarded from a store that turns out to have no effect (C53)."
  },
  {
   "property": "C114",
   "status": "proved",
   "theorems": [
    "Verif.Props.C114_one_place",
    "Verif.Props.C114_right_place",
    "Verif.Props.C114_capacity",
    "Verif.Props.C114_no_abort",
    "Verif.Props.C114_ids",
    "Verif.Props.C114_answers",
    "Verif.Props.C114_life",
    "Verif.Props.C114_reported",
    "Verif.Props.C114_ports"
   ],
   "note": "Load side of the unit's waiting lists, all sizes with 0 < n <= 2^iw, iw <= 31, window >= 1.  C114_reported needs a report port not taken by a store-conditional.  Surroundings: LsuList.Valid."
  },
  {
   "property": "C115",
   "status": "proved",
   "theorems": [
    "Verif.Props.C115_one_place",
    "Verif.Props.C115_capacity",
    "Verif.Props.C115_no_abort",
    "Verif.Props.C115_reported",
    "Verif.Props.C115_life",
    "Verif.Props.C115_ports",
    "Verif.Props.C115_progress",
    "Verif.Props.C115_wide_loses"
   ],
   "note": "For dispatch no wider than the store address ports, load ports and window, which holds for the checked-in config.h. C115_wide_loses shows the condition is needed: with the sizes of config.h.large a reachable state has lost a store for ever. That run lets committed stores be carried out in the cycle after their commit."
  },
  {
   "property": "C116",
   "status": "partial",
   "theorems": [
    "Verif.Props.C116_twin_partial",
    "Verif.Props.C116_begin_partial",
    "Verif.Props.C116_ids",
    "Verif.Props.C116_plain_match_fails",
    "Verif.Props.C116_replay_fails",
    "Verif.Props.C116_two_events_fails",
    "Verif.Props.C116_bitwise",
    "Verif.Props.C116_pack"
   ],
   "note": "Proved for all inputs under the stated conditions on a cycle (walk read granted only if asked for, one event, right match bit, no replay of an instruction-side walk read). Witnesses show each of the last three is needed, so the packed form and the walker are not equivalent in general. Bitwise step, packing and the passing of identifiers are proved without conditions."
  },
  {
   "property": "C117",
   "status": "partial",
   "theorems": [
    "Verif.Props.C117_trace",
    "Verif.Props.C117_decoded_partial",
    "Verif.Props.C117_start",
    "Verif.Props.C117_progress",
    "Verif.Props.C117_reference",
    "Verif.Props.C117_memory_fails",
    "Verif.Props.C117_mirror_fails",
    "Verif.Props.C117_steady_fails"
   ],
   "note": "Proved for every machine with the stated interface; partial because the code does not bring the machine's memory back at a redirect (C117_memory_fails)."
  },
  {
   "property": "C118",
   "status": "proved",
   "theorems": [
    "Verif.Props.C118_data",
    "Verif.Props.C118_fetch",
    "Verif.Props.C118_arrays",
    "Verif.Props.C118_slots",
    "Verif.Props.C118_pieces",
    "Verif.Props.C118_runs",
    "Verif.Props.C118_data_translates",
    "Verif.Props.C118_fetch_translates"
   ],
   "note": "Data and instruction TLB of any size below 2^31, up to sixteen ports (the limit of the function's own arrays, which it does not check; the repository has four). Walker and routing block as in C66."
  },
  {
   "property": "C119",
   "status": "proved",
   "theorems": [
    "Verif.Props.C119_same",
    "Verif.Props.C119_junk",
    "Verif.Props.C119_no_abort",
    "Verif.Props.C119_fetch"
   ],
   "note": "Same assumptions as C80. Configuration of include/config.h (64-byte lines, 64 sets, 8 ways, look-up latency 0). Counters, traces, the reset input and the second run of comb_core for the counters are not modelled."
  },
  {
   "property": "C120",
   "status": "proved",
   "theorems": [
    "Verif.Props.C120_components",
    "Verif.Props.C120_window",
    "Verif.Props.C120_refines",
    "Verif.Props.C120_no_abort",
    "Verif.Props.C120_schedule_free",
    "Verif.Props.C120_reference"
   ],
   "note": "Executions of Spec/FullCpu: HandOff (C111) and Whole (C110) unchanged, wired together. Hypotheses: well-formed configuration (GoodCfg), surroundings as in FullCpu.Ok (icache ports as C80, unit reports as C106/C110), addresses handed over multiples of four, words fetched are the program's (Holds; for machine words Image, holds_machine). C120_reference: instructions as in C92."
  },
  {
   "property": "C121",
   "status": "proved",
   "theorems": [
    "Verif.Props.C121_no_assert",
    "Verif.Props.C121_live",
    "Verif.Props.C121_operands",
    "Verif.Props.C121_once",
    "Verif.Props.C121_first",
    "Verif.Props.C121_oldest"
   ],
   "note": "Spine with the five issue queues, models unchanged; which registers are broadcast when and the units' reports are the environment's (DESIGN.md, environment assumptions)"
  },
  {
   "property": "C122",
   "status": "proved",
   "theorems": [
    "Verif.Props.C122_no_assert",
    "Verif.Props.C122_operands",
    "Verif.Props.C122_write",
    "Verif.Props.C122_atomic_oldest",
    "Verif.Props.C122_refines",
    "Verif.Props.C122_results",
    "Verif.Props.C122_reference",
    "Verif.Props.C122_uses",
    "Verif.Props.C122_link"
   ],
   "note": "The in-order stages and the issue queues running a program: an instruction executes when its operations have left their queues (its result may be written earlier, when the producing operation has); that its operands are then the sequential machine's is proved, not assumed. Assumed of the units: an announced result has been produced by the next cycle (Ooo.Valid)."
  },
  {
   "property": "C123",
   "status": "proved",
   "theorems": [
    "Verif.Props.C123_queues",
    "Verif.Props.C123_announced",
    "Verif.Props.C123_broadcast",
    "Verif.Props.C123_once",
    "Verif.Props.C123_operands"
   ],
   "note": "All parameters and executions; the operations in flight, squashes and branch masks are computed by the joined machine. Reports of the units and the loads' announcements are assumptions (DESIGN.md)."
  },
  {
   "property": "C124",
   "status": "proved",
   "theorems": [
    "Verif.Props.C124_waits",
    "Verif.Props.C124_sources",
    "Verif.Props.C124_table",
    "Verif.Props.C124_retired",
    "Verif.Props.C124_oldest_ready",
    "Verif.Props.C124_oldest_issues",
    "Verif.Props.C124_no_deadlock"
   ],
   "note": "About the machine of C123 (units, memory and timing open) with one more guarantee of the memory unit, that it announces what it reports, stated in Spec/Progress."
  },
  {
   "property": "C125",
   "status": "proved",
   "theorems": [
    "Verif.Props.C125_never_stuck",
    "Verif.Props.C125_oldest_retires",
    "Verif.Props.C125_retires",
    "Verif.Props.C125_fate"
   ],
   "note": "Deadlock freedom cycle by cycle, and liveness over endless fair runs, for the closed back end of C124."
  },
  {
   "property": "C126",
   "status": "proved",
   "theorems": [
    "Verif.Props.C126_tables",
    "Verif.Props.C126_direction",
    "Verif.Props.C126_rows",
    "Verif.Props.C126_learns",
    "Verif.Props.C126_predicts"
   ],
   "note": "The predictions in flight are tracked by Spec/TageSys.Watch (direction predictor alone) and Tracks (whole predictor). Assumes that each prediction is trained in order with its own direction, provider, rows and tags, and that other trainings of the bank use none of the branch's rows."
  },
  {
   "property": "C127",
   "status": "proved",
   "theorems": [
    "Verif.Props.C127_announced",
    "Verif.Props.C127_operands",
    "Verif.Props.C127_refines",
    "Verif.Props.C127_reference",
    "Verif.Props.C127_total",
    "Verif.Props.C127_forever",
    "Verif.Props.C127_fate"
   ],
   "note": "Joins C122 (values, queues) with C123-C125 (wake-up bus, liveness); the assumption of C122 that announced results have been produced is derived from the units' latencies."
  },
  {
   "property": "C128",
   "status": "proved",
   "theorems": [
    "Verif.Props.C128_contents",
    "Verif.Props.C128_wraps",
    "Verif.Props.C128_latency",
    "Verif.Props.C128_seed",
    "Verif.Props.C128_answer",
    "Verif.Props.C128_held"
   ],
   "note": "Storage tables with and without latency, all histories; the size condition is shown to be needed."
  },
  {
   "property": "C129",
   "status": "partial",
   "theorems": [
    "Verif.Props.C129_contents",
    "Verif.Props.C129_latency",
    "Verif.Props.C129_answered_partial",
    "Verif.Props.C129_lost",
    "Verif.Props.C129_invalidate"
   ],
   "note": "Contents, latency and invalidation in full. 'Every lookup is answered' is false: C129_lost shows a lookup overwritten in the one-entry queue; C129_answered_partial covers lookups not followed by another."
  },
  {
   "property": "C130",
   "status": "partial",
   "theorems": [
    "Verif.Props.C130_total",
    "Verif.Props.C130_levels",
    "Verif.Props.C130_squash",
    "Verif.Props.C130_retired",
    "Verif.Props.C130_hundred_partial",
    "Verif.Props.C130_excess",
    "Verif.Props.C130_over",
    "Verif.Props.C130_decode",
    "Verif.Props.C130_decode_hundred"
   ],
   "note": "Levels and squash accounting hold in all runs; the totals hold without a warm-up. With a warm-up the report exceeds 100 % (C130_over), by a bounded amount (C130_excess). The report at decode is 100 % always."
  },
  {
   "property": "C131",
   "status": "proved",
   "theorems": [
    "Verif.Props.C131_dump",
    "Verif.Props.C131_newest",
    "Verif.Props.C131_walk"
   ],
   "note": "About the buffers as functions of what is recorded. In this commit only satp writes are ever recorded and only the other buffers are dumped (DESIGN.md, coverage)."
  },
  {
   "property": "C132",
   "status": "partial",
   "theorems": [
    "Verif.Props.C132_contents",
    "Verif.Props.C132_hit_partial",
    "Verif.Props.C132_stays",
    "Verif.Props.C132_never",
    "Verif.Props.C132_lost"
   ],
   "note": "Contents for every latency; the lookup is right with latency 0 (the default), and a request stays until it is answered. With any other latency it is refuted: no lookup ever finds a line (C132_never), with a concrete lost line (C132_lost)."
  },
  {
   "property": "C133",
   "status": "partial",
   "theorems": [
    "Verif.Props.C133_line_partial",
    "Verif.Props.C133_held_partial",
    "Verif.Props.C133_waits",
    "Verif.Props.C133_wrong"
   ],
   "note": "Proved for latency 0 (the default), and for every latency when the address stays on the input during the lookup; a waiting lookup keeps its address. Refuted for every other latency with the front end as it is: the first fetch of any address outside set 0 asks for the first line of its page (C133_wrong)."
  },
  {
   "property": "C134",
   "status": "partial",
   "theorems": [
    "Verif.Props.C134_group",
    "Verif.Props.C134_order_partial",
    "Verif.Props.C134_ready_partial",
    "Verif.Props.C134_lost",
    "Verif.Props.C134_untaken"
   ],
   "note": "Every group given is right; order and completeness proved without MMU retries, and with retries for a front end that waits for the cache's ready signal. Refuted for the front end as it is: after a retry the next address is lost (C134_lost)."
  },
  {
   "property": "C135",
   "status": "partial",
   "theorems": [
    "Verif.Props.C135_format_partial",
    "Verif.Props.C135_actual",
    "Verif.Props.C135_zero_negative",
    "Verif.Props.C135_binary",
    "Verif.Props.C135_buffer",
    "Verif.Props.C135_passthrough"
   ],
   "note": "What is printed is proved for all formats and arguments (C135_actual); it is right except for the two kinds that the code gets wrong, which are refuted for all values: a negative number with the zero flag has its zeros before the sign, and %b prints at most sixteen digits. The number buffer is never overrun; unknown types are passed through."
  },
  {
   "property": "C136",
   "status": "partial",
   "theorems": [
    "Verif.Props.C136_mean_partial",
    "Verif.Props.C136_warning_partial",
    "Verif.Props.C136_between",
    "Verif.Props.C136_whole",
    "Verif.Props.C136_ratio",
    "Verif.Props.C136_twice",
    "Verif.Props.C136_no_warning"
   ],
   "note": "Proved for directories with at most one good log per simpoint (bounds and ratio for all). Refuted otherwise: a repeated log counts twice, for all weights and cycles, and missing weight can go unreported. Exact arithmetic in place of floating point."
  },
  {
   "property": "C137",
   "status": "proved",
   "theorems": [
    "Verif.Props.C137_counters",
    "Verif.Props.C137_cause",
    "Verif.Props.C137_accuracy"
   ],
   "note": "Counters as natural numbers; floating point as rationals."
  },
  {
   "property": "C138",
   "status": "partial",
   "theorems": [
    "Verif.Props.C138_right_iff",
    "Verif.Props.C138_wrong",
    "Verif.Props.C138_detail_partial",
    "Verif.Props.C138_old_iff"
   ],
   "note": "Refuted: six of the eleven figures are read from another line (five from the decode-side section, memory bound from external memory bound), for all logs unless the numbers happen to be equal. Proved for the other five."
  }
 ]
}
