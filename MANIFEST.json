{
 "claims": [
  {
   "property": "C01",
   "status": "proved",
   "theorems": [
    "CallStack.C01_exact_max_sound"
   ],
   "note": ""
  },
  {
   "property": "C02",
   "status": "proved",
   "theorems": [
    "CallStack.C02_exact_max_attained"
   ],
   "note": ""
  },
  {
   "property": "C03",
   "status": "proved",
   "theorems": [
    "CallStack.C03_lower_bound_genuine"
   ],
   "note": ""
  },
  {
   "property": "C04",
   "status": "proved",
   "theorems": [
    "CallStack.C04_exact_iff"
   ],
   "note": ""
  },
  {
   "property": "C05",
   "status": "proved",
   "theorems": [
    "CallStack.C05_heaviest"
   ],
   "note": ""
  },
  {
   "property": "C06",
   "status": "proved",
   "theorems": [
    "CallStack.C06_total",
    "CallStack.C06_covers",
    "CallStack.C06_abort_iff",
    "CallStack.C06_only_overflow",
    "CallStack.C06_no_info"
   ],
   "note": "total known local usage below 2^64 assumed for success; without it the only abort is arithmetic overflow"
  },
  {
   "property": "C07",
   "status": "proved",
   "theorems": [
    "CallStack.C07_order_independent"
   ],
   "note": ""
  },
  {
   "property": "C08",
   "status": "proved",
   "theorems": [
    "CallStack.C08_branch",
    "CallStack.C08_agree"
   ],
   "note": ""
  },
  {
   "property": "C09",
   "status": "proved",
   "theorems": [
    "CallStack.C09_clusters"
   ],
   "note": ""
  },
  {
   "property": "C10",
   "status": "proved",
   "theorems": [
    "CallStack.C10_perm",
    "CallStack.C10_max"
   ],
   "note": ""
  },
  {
   "property": "C11",
   "status": "proved",
   "theorems": [
    "CallStack.C11_no_overflow"
   ],
   "note": ""
  },
  {
   "property": "C12",
   "status": "proved",
   "theorems": [
    "CallStack.C12_monotone",
    "CallStack.C12_adding_a_call_can_lower"
   ],
   "note": "the claim for adding calls is refuted by a concrete witness"
  },
  {
   "property": "C17",
   "status": "proved",
   "theorems": [
    "CallStack.C17_scc_order"
   ],
   "note": ""
  },
  {
   "property": "C13",
   "status": "proved",
   "theorems": [
    "CallStack.C13_start_keeps_reachable",
    "CallStack.C13_count"
   ],
   "note": ""
  },
  {
   "property": "C14",
   "status": "proved",
   "theorems": [
    "CallStack.C14_start_keeps_calls"
   ],
   "note": ""
  },
  {
   "property": "C15",
   "status": "proved",
   "theorems": [
    "CallStack.C15_max_unchanged",
    "CallStack.C15_printed_graph"
   ],
   "note": ""
  },
  {
   "property": "C16",
   "status": "proved",
   "theorems": [
    "CallStack.C16_start_resolution",
    "CallStack.C16_unfiltered"
   ],
   "note": ""
  },
  {
   "property": "C18",
   "status": "proved",
   "theorems": [
    "CallStack.C18_dehash_exact",
    "CallStack.C18_dehash_none"
   ],
   "note": ""
  },
  {
   "property": "C19",
   "status": "proved",
   "theorems": [
    "CallStack.C19_shortened_iff_unique",
    "CallStack.C19_no_hash",
    "CallStack.C19_no_confusion"
   ],
   "note": ""
  },
  {
   "property": "C20",
   "status": "partial",
   "theorems": [
    "CallStack.C20_shortening_can_abort",
    "CallStack.C20_run_aborts",
    "CallStack.C20_shortening_iff",
    "CallStack.C20_shortening_total_partial"
   ],
   "note": "false in general: concrete witness; the exact condition is proved (C20_shortening_iff)"
  },
  {
   "property": "C21",
   "status": "proved",
   "theorems": [
    "CallStack.C21_outlined"
   ],
   "note": ""
  },
  {
   "property": "C22",
   "status": "proved",
   "theorems": [
    "CallStack.C22_dot_faithful",
    "CallStack.C22_dot_injective"
   ],
   "note": ""
  },
  {
   "property": "C23",
   "status": "proved",
   "theorems": [
    "CallStack.C23_label_quoted"
   ],
   "note": ""
  },
  {
   "property": "C24",
   "status": "proved",
   "theorems": [
    "CallStack.C24_complete",
    "CallStack.C24_sorted_stable",
    "CallStack.C24_stable_sort_unique",
    "CallStack.C24_top_faithful"
   ],
   "note": ""
  },
  {
   "property": "C66",
   "status": "partial",
   "theorems": [
    "CallStack.C66_wrong_start",
    "CallStack.C66_hidden",
    "CallStack.C66_selected_iff",
    "CallStack.C66_start_is_named_partial"
   ],
   "note": "false in general: concrete witness; which symbol is selected is exact (C66_selected_iff); partial theorem when every `start::h..` match is a hash"
  },
  {
   "property": "C67",
   "status": "partial",
   "theorems": [
    "CallStack.C67_display_collision",
    "CallStack.C67_same_name_iff",
    "CallStack.C67_names_distinct_partial"
   ],
   "note": "false in general: concrete witness; the exact condition is proved (C67_same_name_iff)"
  },
  {
   "property": "C68",
   "status": "partial",
   "theorems": [
    "CallStack.C68_backslash_breaks_quotes",
    "CallStack.C68_faithful_iff"
   ],
   "note": "false in general: concrete witness; the dot file shows the graph exactly iff no shown name contains a backslash (C68_faithful_iff)"
  },
  {
   "property": "C25",
   "status": "proved",
   "theorems": [
    "CallStack.C25_aliases",
    "CallStack.C25_same_name_merged"
   ],
   "note": "assumes that no name is given to two addresses, as the statement says; C25_same_name_merged shows what happens otherwise"
  },
  {
   "property": "C26",
   "status": "proved",
   "theorems": [
    "CallStack.C26_thumb_bit",
    "CallStack.C26_remaining",
    "CallStack.C26_kept_iff",
    "CallStack.C26_collision"
   ],
   "note": "C26_collision shows that the proviso is needed"
  },
  {
   "property": "C27",
   "status": "proved",
   "theorems": [
    "CallStack.C27_version_suffix",
    "CallStack.C27_two_separators"
   ],
   "note": ""
  },
  {
   "property": "C28",
   "status": "proved",
   "theorems": [
    "CallStack.C28_one_node_per_function",
    "CallStack.C28_no_abort",
    "CallStack.C28_in_call_graph"
   ],
   "note": ""
  },
  {
   "property": "C29",
   "status": "partial",
   "theorems": [
    "CallStack.C29_direct_calls_partial",
    "CallStack.C29_memcmp_alias_dropped"
   ],
   "note": "false for memcmp known only as an alias: concrete witness; partial theorem for all other callees; exact in C103"
  },
  {
   "property": "C30",
   "status": "proved",
   "theorems": [
    "CallStack.C30_edges_justified",
    "CallStack.C30_finished_graph"
   ],
   "note": ""
  },
  {
   "property": "C31",
   "status": "proved",
   "theorems": [
    "CallStack.C31_single_edge",
    "CallStack.C31_single_edge_shared",
    "CallStack.C31_bitcast_duplicates",
    "CallStack.C31_bitcast_alias"
   ],
   "note": "the witnesses show that bitcast calls do produce duplicates and do not resolve aliases"
  },
  {
   "property": "C32",
   "status": "proved",
   "theorems": [
    "CallStack.C32_dropped_functions"
   ],
   "note": ""
  },
  {
   "property": "C33",
   "status": "proved",
   "theorems": [
    "CallStack.C33_known_or_abort",
    "CallStack.C33_no_effect",
    "CallStack.C33_no_node"
   ],
   "note": ""
  },
  {
   "property": "C34",
   "status": "partial",
   "theorems": [
    "CallStack.C34_memory_partial",
    "CallStack.C34_edge_iff",
    "CallStack.C34_alias_not_found",
    "CallStack.C34_memmove_is_a_fill"
   ],
   "note": "false for routines known only as an alias and for memmove: concrete witnesses; partial theorem otherwise; C34_edge_iff: exactly the routines shown under a listed name get an edge"
  },
  {
   "property": "C35",
   "status": "partial",
   "theorems": [
    "CallStack.C35_external_edge_partial",
    "CallStack.C35_external_inexact_partial",
    "CallStack.C35_external_memcmp"
   ],
   "note": "false for an undefined memcmp: concrete witness; partial theorem for all other symbols; exact in C103"
  },
  {
   "property": "C39",
   "status": "proved",
   "theorems": [
    "CallStack.C39_signatures",
    "CallStack.C39_types",
    "CallStack.C39_reflexive_symmetric",
    "CallStack.C39_not_transitive",
    "CallStack.C39_nested_pointers_differ"
   ],
   "note": ""
  },
  {
   "property": "C40",
   "status": "partial",
   "theorems": [
    "CallStack.C40_order_iff",
    "CallStack.C40_order_independent_partial",
    "CallStack.C40_order_matters"
   ],
   "note": "false in general: concrete witness; C40_order_iff is the exact condition if memcmp is shown under this name; partial theorem under that condition"
  },
  {
   "property": "C69",
   "status": "partial",
   "theorems": [
    "CallStack.C69_no_abort_iff",
    "CallStack.C69_no_abort_only_if",
    "CallStack.C69_no_abort_if_partial",
    "CallStack.C69_memcmp_abort"
   ],
   "note": "not as stated: an unknown memcmp is accepted or aborts depending on the order of the definitions (concrete witness); C69_no_abort_iff is the exact condition"
  },
  {
   "property": "C36",
   "status": "partial",
   "theorems": [
    "CallStack.C36_indirect_complete_partial",
    "CallStack.C36_reached_iff",
    "CallStack.C36_second_type_dropped",
    "CallStack.C36_declared_formatter_dropped"
   ],
   "note": "false for functions with two types and formatters that are only declared: concrete witnesses; partial theorem otherwise"
  },
  {
   "property": "C37",
   "status": "proved",
   "theorems": [
    "CallStack.C37_dashed_nodes"
   ],
   "note": ""
  },
  {
   "property": "C38",
   "status": "partial",
   "theorems": [
    "CallStack.C38_untyped_edge_partial",
    "CallStack.C38_unknown_iff",
    "CallStack.C38_untyped_inexact_partial",
    "CallStack.C38_unmatched_call_dropped"
   ],
   "note": "false for signatures no function has: concrete witness; partial theorem otherwise"
  },
  {
   "property": "C41",
   "status": "partial",
   "theorems": [
    "CallStack.C41_reasons",
    "CallStack.C41_end_to_end_partial",
    "CallStack.C41_printed_locals_partial",
    "CallStack.C41_machine_code_partial",
    "CallStack.C41_with_start_partial",
    "CallStack.C41_bound_violated"
   ],
   "note": "false when a call is dropped (C29, C36): concrete witness; partial theorem for programs that avoid those cases"
  },
  {
   "property": "C49",
   "status": "proved",
   "theorems": [
    "CallStack.C49_jumps_are_calls",
    "CallStack.C49_unknown_target_aborts",
    "CallStack.C49_edges_justified",
    "CallStack.C49_jumps_are_calls_shared"
   ],
   "note": ""
  },
  {
   "property": "C50",
   "status": "proved",
   "theorems": [
    "CallStack.C50_override_policy",
    "CallStack.C50_in_call_graph"
   ],
   "note": ""
  },
  {
   "property": "C51",
   "status": "proved",
   "theorems": [
    "CallStack.C51_indirect_without_ir",
    "CallStack.C51_indirect_without_ir_shared"
   ],
   "note": ""
  },
  {
   "property": "C42",
   "status": "proved",
   "theorems": [
    "CallStack.C42_bl_targets",
    "CallStack.C42_bl_targets_all",
    "CallStack.C42_edges",
    "CallStack.C42_edges_shared"
   ],
   "note": "C42_bl_targets_all: also in code with the misread instructions of C43, C46, C47"
  },
  {
   "property": "C43",
   "status": "partial",
   "theorems": [
    "CallStack.C43_b_targets_partial",
    "CallStack.C43_t3_swapped",
    "CallStack.C43_targets_iff"
   ],
   "note": "exact condition for whole functions in C43_targets_iff; false for the conditional 32-bit branch when bits 18 and 19 of the offset differ: proved to be misread for every such offset; partial theorem for all other branches"
  },
  {
   "property": "C44",
   "status": "partial",
   "theorems": [
    "CallStack.C44_instruction_sequence_partial",
    "CallStack.C44_narrow",
    "CallStack.C44_wide",
    "CallStack.C44_narrow_complete",
    "CallStack.C44_wide_complete",
    "CallStack.C44_wide_all",
    "CallStack.C44_width_iff",
    "CallStack.C44_never_aborts",
    "CallStack.C44_bkpt",
    "CallStack.C44_bkpt_hides_call"
   ],
   "note": "exact condition per instruction in C44_width_iff; false for BKPT, which is taken for half of a 32-bit instruction; partial theorem for all other instructions, with a proof that the list of exceptions is complete"
  },
  {
   "property": "C45",
   "status": "partial",
   "theorems": [
    "CallStack.C45_pools_iff",
    "CallStack.C45_literal_pools_partial",
    "CallStack.C45_bkpt_reads_pool"
   ],
   "note": "false after a BKPT: concrete witness; exact condition for any code of either architecture"
  },
  {
   "property": "C46",
   "status": "partial",
   "theorems": [
    "CallStack.C46_stack_sum_partial",
    "CallStack.C46_missed",
    "CallStack.C46_stmdb_without_writeback",
    "CallStack.C46_account",
    "CallStack.C46_exact_iff",
    "CallStack.C46_gives_up_iff",
    "CallStack.C46_modified_iff"
   ],
   "note": "exact condition for whole functions in C46_exact_iff; false for SUBW, STRD, STRB, STRH, which are ignored, and for STMDB without writeback, which is counted; partial theorem for all other instructions"
  },
  {
   "property": "C47",
   "status": "partial",
   "theorems": [
    "CallStack.C47_expand_partial",
    "CallStack.C47_expand_wrong",
    "CallStack.C47_wrong_in_function"
   ],
   "note": "what it does to the figure of a function is in C46_account; false exactly for the constants 00XY00XY with XY not zero; partial theorem for all others"
  },
  {
   "property": "C48",
   "status": "proved",
   "theorems": [
    "CallStack.C48_indirect",
    "CallStack.C48_indirect_all"
   ],
   "note": ""
  },
  {
   "property": "C52",
   "status": "proved",
   "theorems": [
    "CallStack.C52_print_parse",
    "CallStack.C52_written_types",
    "CallStack.C52_parsed_wf",
    "CallStack.C52_void_function_output"
   ],
   "note": "C52_void_function_output shows that the exclusion is needed"
  },
  {
   "property": "C53",
   "status": "proved",
   "theorems": [
    "CallStack.C53_distinct_labels",
    "CallStack.C53_parsed",
    "CallStack.C53_quotes"
   ],
   "note": ""
  },
  {
   "property": "C55",
   "status": "proved",
   "theorems": [
    "CallStack.C55_error_line"
   ],
   "note": ""
  },
  {
   "property": "C56",
   "status": "proved",
   "theorems": [
    "CallStack.C56_sound",
    "CallStack.C56_file",
    "CallStack.C56_type_recursion"
   ],
   "note": ""
  },
  {
   "property": "C54",
   "status": "proved",
   "theorems": [
    "CallStack.C54_nothing_skipped",
    "CallStack.C54_call_recorded",
    "CallStack.C54_direct_name"
   ],
   "note": ""
  },
  {
   "property": "C57",
   "status": "proved",
   "theorems": [
    "CallStack.C57_define_reads_back",
    "CallStack.C57_unambiguous"
   ],
   "note": ""
  },
  {
   "property": "C58",
   "status": "proved",
   "theorems": [
    "CallStack.C58_module_reads_back",
    "CallStack.C58_unambiguous"
   ],
   "note": ""
  },
  {
   "property": "C70",
   "status": "partial",
   "theorems": [
    "CallStack.C70_invoke_recorded_partial",
    "CallStack.C70_invoke_dropped",
    "CallStack.C70_assembly_dropped",
    "CallStack.C70_dropped_iff",
    "CallStack.C70_invoke_iff"
   ],
   "note": "false for an invoke of a casted function, of inline assembly and for unknown attributes: concrete witnesses; partial theorem for direct and indirect invokes in the expected form; exact condition for lines with closed quotes and without the word call"
  },
  {
   "property": "C59",
   "status": "proved",
   "theorems": [
    "CallStack.C59_wrapper_status",
    "CallStack.C59_started_iff",
    "CallStack.C59_forwards_arguments",
    "CallStack.C59_nothing_lost",
    "CallStack.C59_queries_refused"
   ],
   "note": ""
  },
  {
   "property": "C60",
   "status": "partial",
   "theorems": [
    "CallStack.C60_understood_partial",
    "CallStack.C60_accepted_iff",
    "CallStack.C60_refused_iff",
    "CallStack.C60_read_once",
    "CallStack.C60_failures",
    "CallStack.C60_other_forms"
   ],
   "note": "which argument vectors are accepted and what is read is exact for all of them; false for options spelled in ways cargo does not use (joined long options, --codegen, priv,noprelude:): concrete witnesses; partial theorem for the spelling of cargo"
  },
  {
   "property": "C61",
   "status": "proved",
   "theorems": [
    "CallStack.C61_announcements_arrive",
    "CallStack.C61_wrapper_announces",
    "CallStack.C61_wrapper_lines"
   ],
   "note": ""
  },
  {
   "property": "C62",
   "status": "proved",
   "theorems": [
    "CallStack.C62_newest_file",
    "CallStack.C62_object_file"
   ],
   "note": ""
  },
  {
   "property": "C63",
   "status": "proved",
   "theorems": [
    "CallStack.C63_toolchain_gate"
   ],
   "note": ""
  },
  {
   "property": "C64",
   "status": "proved",
   "theorems": [
    "CallStack.C64_one_file",
    "CallStack.C64_cargo_request",
    "CallStack.C64_no_std"
   ],
   "note": ""
  },
  {
   "property": "C65",
   "status": "proved",
   "theorems": [
    "CallStack.C65_merged",
    "CallStack.C65_builtins_win"
   ],
   "note": ""
  },
  {
   "property": "C71",
   "status": "partial",
   "theorems": [
    "CallStack.C71_same_target_partial",
    "CallStack.C71_same_target_iff",
    "CallStack.C71_flag_overridden"
   ],
   "note": "false if configuration and flag name different targets: the analysis follows the configuration, the build the flag"
  },
  {
   "property": "C72",
   "status": "proved",
   "theorems": [
    "CallStack.C72_sizes"
   ],
   "note": ""
  },
  {
   "property": "C73",
   "status": "partial",
   "theorems": [
    "CallStack.C73_from_files_partial"
   ],
   "note": "needs that function names are unique and types unambiguous, as C41"
  },
  {
   "property": "C74",
   "status": "proved",
   "theorems": [
    "CallStack.C74_machine_abort_iff",
    "CallStack.C74_reasons"
   ],
   "note": ""
  },
  {
   "property": "C75",
   "status": "proved",
   "theorems": [
    "CallStack.C75_run_ends_with_output",
    "CallStack.C75_graph_iff",
    "CallStack.C75_output_iff",
    "CallStack.C75_output_start_iff",
    "CallStack.C75_output_only_if"
   ],
   "note": ""
  },
  {
   "property": "C76",
   "status": "partial",
   "theorems": [
    "CallStack.C76_order_irrelevant_partial",
    "CallStack.C76_figures_iff",
    "CallStack.C76_every_choice",
    "CallStack.C76_void_order_matters"
   ],
   "note": "false if two types start with core::fmt::Void (witness: max 408 or 24; exact condition: C76_figures_iff, all types that may be chosen lead to the same maxima) or memory routines are found depending on the order (exact condition: C40)"
  },
  {
   "property": "C77",
   "status": "proved",
   "theorems": [
    "CallStack.C77_exit_status",
    "CallStack.C77_no_result",
    "CallStack.C77_build_failure",
    "CallStack.C77_not_announced",
    "CallStack.C77_request"
   ],
   "note": ""
  },
  {
   "property": "C78",
   "status": "partial",
   "theorems": [
    "CallStack.C78_touched",
    "CallStack.C78_triggers_iff",
    "CallStack.C78_triggers_partial",
    "CallStack.C78_other_touched"
   ],
   "note": "false for examples and further binaries if src/main.rs exists, which is touched instead; C78_triggers_iff is the exact condition"
  },
  {
   "property": "C79",
   "status": "partial",
   "theorems": [
    "CallStack.C79_from_command_line_partial"
   ],
   "note": "assumptions of C41 and no backslash in shown names (C68)"
  },
  {
   "property": "C80",
   "status": "partial",
   "theorems": [
    "CallStack.C80_max_line_partial",
    "CallStack.C80_covers_iff",
    "CallStack.C80_lower_bound_hidden",
    "CallStack.C80_recursion_hidden"
   ],
   "note": "C80_covers_iff is the exact condition; false if a maximum is a lower bound, which the listing does not show; holds from functions whose maximum is exact"
  },
  {
   "property": "C81",
   "status": "partial",
   "theorems": [
    "CallStack.C81_without_size_partial",
    "CallStack.C81_size_iff",
    "CallStack.C81_calls_hidden",
    "CallStack.C81_understates"
   ],
   "note": "false if data or nothing follows the code: the function is taken to be empty, with 0 bytes of stack and no calls"
  },
  {
   "property": "C82",
   "status": "partial",
   "theorems": [
    "CallStack.C82_shown_iff",
    "CallStack.C82_shown_if_known_partial",
    "CallStack.C82_not_shown"
   ],
   "note": "false on thumb targets if all figures come from the machine code; the exact condition is proved"
  },
  {
   "property": "C83",
   "status": "proved",
   "theorems": [
    "CallStack.C83_result"
   ],
   "note": ""
  },
  {
   "property": "C84",
   "status": "proved",
   "theorems": [
    "CallStack.C84_indirect_nodes"
   ],
   "note": ""
  },
  {
   "property": "C85",
   "status": "proved",
   "theorems": [
    "CallStack.C85_figures"
   ],
   "note": "for programs in which names, definitions, declarations and addresses occur once and the calls found do not depend on the order of the definitions (exact condition: C40)"
  },
  {
   "property": "C86",
   "status": "proved",
   "theorems": [
    "CallStack.C86_gaps_announced"
   ],
   "note": ""
  },
  {
   "property": "C87",
   "status": "proved",
   "theorems": [
    "CallStack.C87_overrides_announced"
   ],
   "note": ""
  },
  {
   "property": "C88",
   "status": "proved",
   "theorems": [
    "CallStack.C88_assumptions_announced"
   ],
   "note": ""
  },
  {
   "property": "C89",
   "status": "partial",
   "theorems": [
    "CallStack.C89_lower_bounds_explained_partial",
    "CallStack.C89_silent"
   ],
   "note": "false if a function that is not in the executable is called directly, and for recursion: no message; otherwise there is one, and lower bounds are characterised exactly"
  },
  {
   "property": "C90",
   "status": "proved",
   "theorems": [
    "CallStack.C90_start_announced",
    "CallStack.C90_start"
   ],
   "note": ""
  },
  {
   "property": "C91",
   "status": "proved",
   "theorems": [
    "CallStack.C91_no_figures",
    "CallStack.C91_no_maxima"
   ],
   "note": ""
  },
  {
   "property": "C92",
   "status": "proved",
   "theorems": [
    "CallStack.C92_no_callees"
   ],
   "note": ""
  },
  {
   "property": "C93",
   "status": "partial",
   "theorems": [
    "CallStack.C93_figure_bounds_executions_partial",
    "CallStack.C93_untouched_partial",
    "CallStack.C93_bounds_iff",
    "CallStack.C93_untouched_iff",
    "CallStack.C93_attained",
    "CallStack.C93_big_frames",
    "CallStack.C93_big_frame_unnoticed",
    "CallStack.C93_computed_jumps"
   ],
   "note": "false if the stack pointer or the program counter is set from a register (add sp, r6: large frames of ARMv6-M): concrete witnesses; otherwise proved for all executions; C93_bounds_iff and C93_untouched_iff are the exact conditions if no execution gets to a jump to a register, or SP counts as not modified"
  },
  {
   "property": "C94",
   "status": "partial",
   "theorems": [
    "CallStack.C94_reasons",
    "CallStack.C94_executions_bounded_partial",
    "CallStack.C94_with_start_partial",
    "CallStack.C94_bound_exceeded",
    "CallStack.C94_big_frames_refused"
   ],
   "note": "false as C93 and C41 are; needs code that changes SP and PC by immediates only, one type per function, and that the compiler's figures hold where the tool relies on them alone"
  },
  {
   "property": "C95",
   "status": "proved",
   "theorems": [
    "CallStack.C95_machine_words",
    "CallStack.C95_checked",
    "CallStack.C95_release",
    "CallStack.C95_same_output",
    "CallStack.C95_word",
    "CallStack.C95_crossing",
    "CallStack.C95_sum_wraps"
   ],
   "note": "for code sections of at most 1 GiB below 2^32 (with overflow checks, all of it on one side of 2^31, away from it by the reach of a branch) and figures that together fit into 64 bits; both limits are shown to be needed"
  },
  {
   "property": "C96",
   "status": "proved",
   "theorems": [
    "CallStack.C96_start_figures"
   ],
   "note": "assumptions of C85; the run without a start point must succeed"
  },
  {
   "property": "C97",
   "status": "partial",
   "theorems": [
    "CallStack.C97_thumb_analysed_partial",
    "CallStack.C97_machine_targets",
    "CallStack.C97_other_thumb"
   ],
   "note": "false for ARMv8-M (thumbv8m.*): witness with a maximum that is too small; exact set of targets proved"
  },
  {
   "property": "C98",
   "status": "proved",
   "theorems": [
    "CallStack.C98_displayed",
    "CallStack.C98_outside_same_name"
   ],
   "note": "for live functions; a function outside the program can take the name of a live one"
  },
  {
   "property": "C99",
   "status": "partial",
   "theorems": [
    "CallStack.C99_command_line_to_executions_partial"
   ],
   "note": "assumptions of C94; shown names without backslash (C68)"
  },
  {
   "property": "C100",
   "status": "proved",
   "theorems": [
    "CallStack.C100_loaded"
   ],
   "note": "given that the crates for object files return symbols in order of address and 64 bit sizes, as their types say"
  },
  {
   "property": "C101",
   "status": "proved",
   "theorems": [
    "CallStack.C101_command_line_to_figures"
   ],
   "note": "names must occur once, the calls found must not depend on the order of the definitions (exact condition: C40), shown names be free of backslashes (C68)"
  },
  {
   "property": "C102",
   "status": "proved",
   "theorems": [
    "CallStack.C102_command_line_to_listing"
   ],
   "note": "as C101, and no line feeds in shown names"
  },
  {
   "property": "C103",
   "status": "proved",
   "theorems": [
    "CallStack.C103_nodes",
    "CallStack.C103_edges",
    "CallStack.C103_live_edges",
    "CallStack.C103_edges_unordered"
   ],
   "note": "names must occur once; edges of the finished graph on targets without machine code analysis (with machine code analysis see C85)"
  },
  {
   "property": "C104",
   "status": "partial",
   "theorems": [
    "CallStack.C104_reasons",
    "CallStack.C104_executions_partial",
    "CallStack.C104_closed_partial",
    "CallStack.C104_with_start_partial",
    "CallStack.C104_from_command_line_partial",
    "CallStack.C104_bound_violated"
   ],
   "note": "assumes that the cases of dropped calls in C29, C34, C36 do not occur; false without: witness with __aeabi_memcpy8; inline assembly, unwinding and interrupts are not in the executions"
  },
  {
   "property": "C105",
   "status": "proved",
   "theorems": [
    "CallStack.C105_local",
    "CallStack.C105_one_frame",
    "CallStack.C105_reported"
   ],
   "note": "assumptions of C85 for both versions, and at most one type that begins with core::fmt::Void"
  },
  {
   "property": "C106",
   "status": "proved",
   "theorems": [
    "CallStack.C106_types",
    "CallStack.C106_types_iff",
    "CallStack.C106_types_unique",
    "CallStack.C106_file",
    "CallStack.C106_direct_call"
   ],
   "note": "what is written is stated as a grammar (Spec/IrText, Spec/IrRead); it allows a few forms that LLVM does not print, listed in DESIGN.md"
  },
  {
   "property": "C107",
   "status": "proved",
   "theorems": [
    "CallStack.C107_mark",
    "CallStack.C107_from_command_line"
   ],
   "note": "assumptions of C85; what a call can need is stated over all sizes of unknown frames and all uses of functions outside the executable"
  },
  {
   "property": "C108",
   "status": "proved",
   "theorems": [
    "CallStack.C108_texts_differ",
    "CallStack.C108_lines_mean",
    "CallStack.C108_errors"
   ],
   "note": "names must occur once; what the logger puts before a text (time, level, module) is not modelled; printing of lists of names is a parameter"
  },
  {
   "property": "C109",
   "status": "partial",
   "theorems": [
    "CallStack.C109_reasons",
    "CallStack.C109_reasons_ir",
    "CallStack.C109_interrupts_partial",
    "CallStack.C109_interrupts_ir_partial",
    "CallStack.C109_reasons_shared",
    "CallStack.C109_interrupts_shared_partial",
    "CallStack.C109_reasons_ir_shared",
    "CallStack.C109_interrupts_ir_shared_partial",
    "CallStack.C109_from_command_line_partial",
    "CallStack.C109_ir_from_command_line_partial",
    "CallStack.C109_from_command_line_shared_partial",
    "CallStack.C109_ir_from_command_line_shared_partial",
    "CallStack.C109_attained",
    "CallStack.C109_levels",
    "CallStack.C109_main_alone_exceeded"
   ],
   "note": "assumptions of C94 and C104 for all code; bytes saved on entry are a parameter; handlers of equal priority do not interrupt each other; all run on one stack"
  },
  {
   "property": "C110",
   "status": "proved",
   "theorems": [
    "CallStack.C110_roots"
   ],
   "note": "assumptions of C85; which functions may call which is stated on the LLVM-IR and the machine code"
  },
  {
   "property": "C111",
   "status": "proved",
   "theorems": [
    "CallStack.C111_recursion",
    "CallStack.C111_readme",
    "CallStack.C111_readme_deep"
   ],
   "note": "assumptions of C85; the README's program is given as LLVM-IR and machine code by hand, from the README and its figure"
  },
  {
   "property": "C112",
   "status": "proved",
   "theorems": [
    "CallStack.C112_standard_error",
    "CallStack.C112_error_reported",
    "CallStack.C112_passed_on",
    "CallStack.C112_texts_differ",
    "CallStack.C112_names_file",
    "CallStack.C112_names_line",
    "CallStack.C112_same_end"
   ],
   "note": "if reading the output of cargo fails in the middle, lines already passed on are not modelled; messages of panics are in C114"
  },
  {
   "property": "C113",
   "status": "proved",
   "theorems": [
    "CallStack.C113_write_errors",
    "CallStack.C113_panic_silent",
    "CallStack.C113_full_device"
   ],
   "note": "from the call graph on; `write!` is modelled as one `write_all` per part of its format string, and the Display of demangled names as a list of pieces"
  },
  {
   "property": "C114",
   "status": "proved",
   "theorems": [
    "CallStack.C114_says_what_is",
    "CallStack.C114_same_runs",
    "CallStack.C114_compiler_figure",
    "CallStack.C114_never_not",
    "CallStack.C114_texts"
   ],
   "note": "the two operands that assert_eq! adds to its message, and messages of the standard library, are not modelled; for these the kind of panic is"
  },
  {
   "property": "C115",
   "status": "partial",
   "theorems": [
    "CallStack.C115_calls",
    "CallStack.C115_figure",
    "CallStack.C115_agree",
    "CallStack.C115_shadowed",
    "CallStack.C115_edges_justified",
    "CallStack.C115_callee_last",
    "CallStack.C115_dashed_nodes",
    "CallStack.C115_shadowed_max",
    "CallStack.C115_shadowed_max_violated",
    "CallStack.C115_bound_partial",
    "CallStack.C115_bound_violated"
   ],
   "note": "false where figures are not compared (C115_bound_violated): functions of the outliner, and functions with inline assembly; the known cases of dropped calls are excluded (C41); functions that share some but not all names are left out"
  },
  {
   "property": "C116",
   "status": "partial",
   "theorems": [
    "CallStack.C116_reasons",
    "CallStack.C116_executions_bounded_partial",
    "CallStack.C116_with_start_partial",
    "CallStack.C116_from_command_line_partial",
    "CallStack.C116_loop_unnoticed"
   ],
   "note": "as C94 where names need not be unique; false where a function that branches into itself has no figure of its own (C116_loop_unnoticed), for outlined functions (C115_bound_violated), and in the cases in which C94 is false"
  },
  {
   "property": "C117",
   "status": "partial",
   "theorems": [
    "CallStack.C117_reasons",
    "CallStack.C117_executions_partial",
    "CallStack.C117_closed",
    "CallStack.C117_with_start_partial",
    "CallStack.C117_from_command_line_partial",
    "CallStack.C117_bound_violated"
   ],
   "note": "as C104 where names need not be unique; false where functions share only some of their names (C117_bound_violated) and in the cases in which C104 is false"
  },
  {
   "property": "C118",
   "status": "proved",
   "theorems": [
    "CallStack.C118_same",
    "CallStack.C118_assertions_hold",
    "CallStack.C118_addresses"
   ],
   "note": "given that the crates for object files return symbols in order of address, as their types say (C100)"
  },
  {
   "property": "C119",
   "status": "proved",
   "theorems": [
    "CallStack.C119_figures",
    "CallStack.C119_names_once",
    "CallStack.C119_hidden",
    "CallStack.C119_roots",
    "CallStack.C119_recursion",
    "CallStack.C119_start_figures",
    "CallStack.C119_command_line",
    "CallStack.C119_mark",
    "CallStack.C119_mark_command_line",
    "CallStack.C119_listing",
    "CallStack.C119_covers_iff"
   ],
   "note": "assumptions of C85 with names that occur together in place of names that occur once; that the figures of the last function need not be sound for the others is C115 and C116"
  },
  {
   "property": "C120",
   "status": "proved",
   "theorems": [
    "CallStack.C120_orders",
    "CallStack.C120_orders_iff",
    "CallStack.C120_every_choice",
    "CallStack.C120_unchanged",
    "CallStack.C120_frames",
    "CallStack.C120_reported"
   ],
   "note": "assumptions of C119, and at most one type can stand for any type (C76); C120_orders_iff is the exact condition where several can; that a run with another order ends as well is C121_orders"
  },
  {
   "property": "C121",
   "status": "proved",
   "theorems": [
    "CallStack.C121_ir_iff",
    "CallStack.C121_no_code_iff",
    "CallStack.C121_machine_iff",
    "CallStack.C121_output",
    "CallStack.C121_orders",
    "CallStack.C121_twins_abort"
   ],
   "note": "when the call graph can be built, and sufficient conditions for output; C121_orders is about whole runs without a start point; functions that share some but not all names are left out on thumb, see C129"
  },
  {
   "property": "C122",
   "status": "partial",
   "theorems": [
    "CallStack.C122_gaps",
    "CallStack.C122_unknown_announced_partial",
    "CallStack.C122_overrides",
    "CallStack.C122_assumptions",
    "CallStack.C122_no_callees",
    "CallStack.C122_lines",
    "CallStack.C122_errors",
    "CallStack.C122_lower_bounds_explained_partial",
    "CallStack.C122_hidden_silent",
    "CallStack.C122_figure_misattributed"
   ],
   "note": "the messages about start points and missing figures are C90 and C91; only functions that are the last of their names are announced whenever their usage is unknown; C122_hidden_silent and C122_figure_misattributed show that the last two claims are false for the code"
  },
  {
   "property": "C123",
   "status": "proved",
   "theorems": [
    "CallStack.C123_indirect_nodes",
    "CallStack.C123_reached_iff",
    "CallStack.C123_unknown_iff"
   ],
   "note": "functions that share some but not all names are left out, as in C119"
  },
  {
   "property": "C124",
   "status": "proved",
   "theorems": [
    "CallStack.C124_says_what_is",
    "CallStack.C124_without_code",
    "CallStack.C124_figure_origin",
    "CallStack.C124_llvm_misquoted"
   ],
   "note": "as C114; C124_llvm_misquoted is a message that is not true; on thumb functions that share some but not all names are left out"
  },
  {
   "property": "C125",
   "status": "proved",
   "theorems": [
    "CallStack.C125_nodes",
    "CallStack.C125_edges",
    "CallStack.C125_live_edges",
    "CallStack.C125_hidden",
    "CallStack.C125_call_lost"
   ],
   "note": "no assumption on names; C125_call_lost is the call that only one of two functions of the same name gets; edges from machine code and dashed nodes are left to C49, C119 and C123"
  },
  {
   "property": "C126",
   "status": "proved",
   "theorems": [
    "CallStack.C126_indirect_nodes",
    "CallStack.C126_reached_iff",
    "CallStack.C126_unknown_iff"
   ],
   "note": "no assumption on names"
  },
  {
   "property": "C127",
   "status": "proved",
   "theorems": [
    "CallStack.C127_figures",
    "CallStack.C127_recursion",
    "CallStack.C127_start_figures",
    "CallStack.C127_mark",
    "CallStack.C127_alike",
    "CallStack.C127_orders",
    "CallStack.C127_command_line",
    "CallStack.C127_too_low"
   ],
   "note": "no assumption on names or on the order of definitions; only runs in which no machine code is analysed (other targets than thumb, or no code section); C127_too_low is the exact maximum that leaves out the calls of a definition with one of the names of the function; C127_orders is for programs with one candidate for the formatted type"
  },
  {
   "property": "C128",
   "status": "proved",
   "theorems": [
    "CallStack.C128_figures",
    "CallStack.C128_recursion",
    "CallStack.C128_start_figures",
    "CallStack.C128_mark",
    "CallStack.C128_alike",
    "CallStack.C128_quiet",
    "CallStack.C128_orders",
    "CallStack.C128_command_line",
    "CallStack.C128_unknown_lost"
   ],
   "note": "no assumption on names or on the order of definitions; the address of a function is unique (C100 for loaded programs); C128_orders is for programs with one candidate for the formatted type and the definitions in the same order; C128_unknown_lost is the exact maximum of a function that calls one with an unknown call, whose code counts for another function"
  },
  {
   "property": "C129",
   "status": "proved",
   "theorems": [
    "CallStack.C129_machine_iff",
    "CallStack.C129_output",
    "CallStack.C129_orders",
    "CallStack.C129_homonyms_abort"
   ],
   "note": "no assumption on names; when the pass over the LLVM-IR ends is C121_ir_iff; C129_output has sufficient conditions; C129_orders is for programs with one candidate for the formatted type and the definitions in the same order; C129_homonyms_abort is the panic over two functions whose code agrees with the figures of the compiler"
  },
  {
   "property": "C130",
   "status": "proved",
   "theorems": [
    "CallStack.C130_says_what_is",
    "CallStack.C130_figure_origin",
    "CallStack.C130_wrong_name"
   ],
   "note": "as C114 and C124, with no assumption on names; C130_wrong_name is a message that names a function whose code agrees with the figure of LLVM"
  },
  {
   "property": "C131",
   "status": "proved",
   "theorems": [
    "CallStack.C131_gaps",
    "CallStack.C131_unknown_announced",
    "CallStack.C131_overrides",
    "CallStack.C131_wrong_warning"
   ],
   "note": "as C86, C87 and C122, with no assumption on names, for runs that end with output; messages about statements are left to C88 and C122; C131_wrong_warning is a warning that names another function than the one with the call"
  }
 ]
}