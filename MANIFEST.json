{
 "claims": [
  {
   "property": "C01",
   "status": "proved",
   "theorems": [
    "ONA.C01_bucket_in_range",
    "ONA.Globals_Hash_nonneg"
   ],
   "note": ""
  },
  {
   "property": "C02",
   "status": "proved",
   "theorems": [
    "ONA.C02_finite_map"
   ],
   "note": ""
  },
  {
   "property": "C03",
   "status": "proved",
   "theorems": [
    "ONA.C03_pool",
    "ONA.C03_full"
   ],
   "note": ""
  },
  {
   "property": "C04",
   "status": "partial",
   "theorems": [
    "ONA.C04_delete_absent_partial",
    "ONA.C04_delete_absent_crashes",
    "ONA.C04_delete_absent_removes_other"
   ],
   "note": "The property is false of the code: two witnesses; the partial theorem gives the case in which it holds."
  },
  {
   "property": "C05",
   "status": "proved",
   "theorems": [
    "ONA.C05_init",
    "ONA.C05_push",
    "ONA.C05_pop",
    "ONA.C05_isEmpty",
    "ONA.C05_history"
   ],
   "note": ""
  },
  {
   "property": "C06",
   "status": "proved",
   "theorems": [
    "ONA.C06_queue_refines_bag",
    "ONA.C06_popMin",
    "ONA.C06_popMax"
   ],
   "note": ""
  },
  {
   "property": "C07",
   "status": "proved",
   "theorems": [
    "ONA.C07_bounded",
    "ONA.C07_push"
   ],
   "note": ""
  },
  {
   "property": "C08",
   "status": "proved",
   "theorems": [
    "ONA.C08_slots"
   ],
   "note": ""
  },
  {
   "property": "C09",
   "status": "proved",
   "theorems": [
    "ONA.C09_rebuild"
   ],
   "note": ""
  },
  {
   "property": "C10",
   "status": "partial",
   "theorems": [
    "ONA.C10_popAt_breaks_order",
    "ONA.C10_popAt_partial"
   ],
   "note": "The property is false of the code (witness); the partial theorem gives the positions for which it holds."
  },
  {
   "property": "C11",
   "status": "proved",
   "theorems": [
    "ONA.C11_table",
    "ONA.C11_remove",
    "ONA.C11_add_new",
    "ONA.C11_memory"
   ],
   "note": "C11_memory: every table of every concept in every reachable state of the whole system."
  },
  {
   "property": "C12",
   "status": "proved",
   "theorems": [
    "ONA.C12_merge"
   ],
   "note": ""
  },
  {
   "property": "C13",
   "status": "partial",
   "theorems": [
    "ONA.C13_disjoint_partial",
    "ONA.C13_double_counted"
   ],
   "note": "False of the code: Table_AddAndRevise has no overlap check (witness). The partial theorem covers disjoint evidence."
  },
  {
   "property": "C14",
   "status": "proved",
   "theorems": [
    "ONA.OccurrenceTimeIndex.C14_kth_newest",
    "ONA.C14_reachable"
   ],
   "note": "C14_reachable: in every reachable state the index answers like the list of additions since the last reset"
  },
  {
   "property": "C15",
   "status": "proved",
   "theorems": [
    "ONA.C15_exact",
    "ONA.C15_pool"
   ],
   "note": ""
  },
  {
   "property": "C16",
   "status": "proved",
   "theorems": [
    "ONA.C16_make",
    "ONA.C16_only_premises",
    "ONA.C16_complete",
    "ONA.C16_newest_kept"
   ],
   "note": ""
  },
  {
   "property": "C17",
   "status": "proved",
   "theorems": [
    "ONA.C17_overlap_iff",
    "ONA.C17_overlap_symm"
   ],
   "note": ""
  },
  {
   "property": "C18",
   "status": "proved",
   "theorems": [
    "ONA.C18_equal_iff",
    "ONA.C18_equal_symm",
    "ONA.Stamp_Equal_iff",
    "ONA.C18_duplicates_not_symmetric"
   ],
   "note": ""
  },
  {
   "property": "C19",
   "status": "proved",
   "theorems": [
    "ONA.C19_independent",
    "ONA.C19_import"
   ],
   "note": ""
  },
  {
   "property": "C20",
   "status": "proved",
   "theorems": [
    "ONA.C20_truth_functions",
    "ONA.C20_confidence_bound",
    "ONA.C20_eternalize",
    "ONA.C20_expectation",
    "ONA.binary64_doubles",
    "ONA.binary64_nearest",
    "ONA.binary64_even"
   ],
   "note": "for every arithmetic with the laws of class Arith; IEEE binary64 (round to nearest even, no overflow) is one: binary64, whose values and rounding are characterised by the binary64_* theorems"
  },
  {
   "property": "C21",
   "status": "proved",
   "theorems": [
    "ONA.C21_revision"
   ],
   "note": ""
  },
  {
   "property": "C22",
   "status": "partial",
   "theorems": [
    "ONA.C22_revision_defined_partial",
    "ONA.C22_revision_undefined"
   ],
   "note": "False at the borders (witnesses); the partial theorem gives the premises for which revision is defined."
  },
  {
   "property": "C23",
   "status": "proved",
   "theorems": [
    "ONA.C23_projection"
   ],
   "note": ""
  },
  {
   "property": "C24",
   "status": "proved",
   "theorems": [
    "ONA.C24_strong",
    "ONA.C24_weak",
    "ONA.C24_other"
   ],
   "note": ""
  },
  {
   "property": "C25",
   "status": "proved",
   "theorems": [
    "ONA.C25_choice",
    "ONA.C25_revision",
    "ONA.C25_empty",
    "ONA.C25_pooled_only_if_disjoint"
   ],
   "note": ""
  },
  {
   "property": "C26",
   "status": "partial",
   "theorems": [
    "ONA.C26_no_abort_partial",
    "ONA.C26_abort",
    "ONA.C26_abort_reachable"
   ],
   "note": "False for confidences above 0.99 (reachable witness). The partial theorem covers confidences in (0, 0.99]."
  },
  {
   "property": "C27",
   "status": "proved",
   "theorems": [
    "ONA.C27_term_equal",
    "ONA.C27_stale_cache"
   ],
   "note": ""
  },
  {
   "property": "C28",
   "status": "proved",
   "theorems": [
    "ONA.C28_extract",
    "ONA.C28_extract_closed",
    "ONA.C28_override",
    "ONA.C28_roundtrip"
   ],
   "note": ""
  },
  {
   "property": "C29",
   "status": "proved",
   "theorems": [
    "ONA.C29_instance",
    "ONA.C29_sound"
   ],
   "note": ""
  },
  {
   "property": "C30",
   "status": "proved",
   "theorems": [
    "ONA.C30_complete"
   ],
   "note": ""
  },
  {
   "property": "C31",
   "status": "partial",
   "theorems": [
    "ONA.C31_normalize_partial",
    "ONA.C31_alpha_partial",
    "ONA.C31_idempotent_partial",
    "ONA.C31_merges"
   ],
   "note": "False of the code when a variable already named like a normalised one must get a larger number: variables are merged (witness). The partial theorems cover all other terms with at most nine variables per kind."
  },
  {
   "property": "C32",
   "status": "proved",
   "theorems": [
    "ONA.C32_names",
    "ONA.C32_stable",
    "ONA.C32_copula_index",
    "ONA.C32_initial_index",
    "ONA.C32_copulaEquals",
    "ONA.C32_calls",
    "ONA.C32_same_reachable",
    "ONA.C32_copulaEquals_reachable",
    "ONA.C32_initial_reachable"
   ],
   "note": "C32_calls and *_reachable: across all calls of the interface and shell commands"
  },
  {
   "property": "C33",
   "status": "partial",
   "theorems": [
    "ONA.C33_capacity_partial",
    "ONA.C33_last_atom_is_zero",
    "ONA.C33_overflow"
   ],
   "note": "False for the 65536th name (witness): its index truncates to atom 0. The partial theorem covers sessions of up to 65535 names."
  },
  {
   "property": "C34",
   "status": "proved",
   "theorems": [
    "ONA.C34_parse",
    "ONA.C34_parse_ground",
    "ONA.C34_notations"
   ],
   "note": "Texts within the length limit, names known or room for new ones. With variables the result is the normalised term (C31)."
  },
  {
   "property": "C35",
   "status": "proved",
   "theorems": [
    "ONA.C35_print",
    "ONA.C35_roundtrip",
    "ONA.C35_injective"
   ],
   "note": "Terms with variables are read back normalised."
  },
  {
   "property": "C36",
   "status": "partial",
   "theorems": [
    "ONA.C36_bounds_partial",
    "ONA.C36_deep",
    "ONA.C36_tokens",
    "ONA.C36_empty"
   ],
   "note": "False in general: 8 nested compounds write outside the term, 1075 brackets outside the token array, an empty text dereferences NULL (witnesses in every session). Proved for texts with at most 6 opening brackets and 1074 characters."
  },
  {
   "property": "C37",
   "status": "proved",
   "theorems": [
    "ONA.C37_map",
    "ONA.C37_create",
    "ONA.MemHistory.inv",
    "ONA.C37_memory"
   ],
   "note": "C37_memory: for every state reachable by calls of the interface and shell commands. The others: for every history of the concept memory (creating concepts, changing their content, new priorities of at most 1)."
  },
  {
   "property": "C38",
   "status": "proved",
   "theorems": [
    "ONA.C38_forget",
    "ONA.C38_room",
    "ONA.C38_reachable",
    "ONA.Demo.C38_reachable_example"
   ],
   "note": "C38_reachable: in every state reachable by calls of the interface and shell commands"
  },
  {
   "property": "C39",
   "status": "proved",
   "theorems": [
    "ONA.C39_links",
    "ONA.C39_calls"
   ],
   "note": "C39_calls: over any call of the interface, from any reachable state."
  },
  {
   "property": "C40",
   "status": "partial",
   "theorems": [
    "ONA.C40_home_partial",
    "ONA.C40_found_partial",
    "ONA.C40_narsese_partial",
    "ONA.C40_kept_partial",
    "ONA.Demo.C40_full",
    "ONA.Demo.C40_example"
   ],
   "note": "proved while the memory has room for concepts (links about operations of other agents are not stored at all); false in a full memory: Demo.C40_full. Whole system: for every state reachable by NAR_INIT, NAR_AddInput, NAR_AddOperation, NAR_AddInputNarsese and shell commands whose arguments are legal (Spec/API.lean)."
  },
  {
   "property": "C41",
   "status": "proved",
   "theorems": [
    "ONA.C41_stored",
    "ONA.C41_weak",
    "ONA.C41_weak_total"
   ],
   "note": "Whole system: for every state reachable by NAR_INIT, NAR_AddInput, NAR_AddOperation, NAR_AddInputNarsese and shell commands whose arguments are legal (Spec/API.lean)."
  },
  {
   "property": "C42",
   "status": "proved",
   "theorems": [
    "ONA.C42_stored",
    "ONA.C42_refused"
   ],
   "note": "Whole system: for every state reachable by NAR_INIT, NAR_AddInput, NAR_AddOperation, NAR_AddInputNarsese and shell commands whose arguments are legal (Spec/API.lean)."
  },
  {
   "property": "C43",
   "status": "proved",
   "theorems": [
    "ONA.C43_buffers",
    "ONA.C43_buffers_sizes",
    "ONA.C43_layer"
   ],
   "note": "Whole system: for every state reachable by NAR_INIT, NAR_AddInput, NAR_AddOperation, NAR_AddInputNarsese and shell commands whose arguments are legal (Spec/API.lean)."
  },
  {
   "property": "C44",
   "status": "proved",
   "theorems": [
    "ONA.C44_confidence"
   ],
   "note": "Whole system: for every state reachable by NAR_INIT, NAR_AddInput, NAR_AddOperation, NAR_AddInputNarsese and shell commands whose arguments are legal (Spec/API.lean). The bound on confidences is not needed for concepts' beliefs: choice keeps the more confident one."
  },
  {
   "property": "C45",
   "status": "proved",
   "theorems": [
    "ONA.C45_range",
    "ONA.C45_use",
    "ONA.C45_order"
   ],
   "note": ""
  },
  {
   "property": "C46",
   "status": "proved",
   "theorems": [
    "ONA.C46_cycles",
    "ONA.C46_input",
    "ONA.C46_sentence",
    "ONA.C46_monotone"
   ],
   "note": "Whole system: for every state reachable by NAR_INIT, NAR_AddInput, NAR_AddOperation, NAR_AddInputNarsese and shell commands whose arguments are legal (Spec/API.lean). The clock advances by the requested cycles plus at most one for each executed operation."
  },
  {
   "property": "C47",
   "status": "proved",
   "theorems": [
    "ONA.C47_ids",
    "ONA.C47_stable",
    "ONA.C47_limit",
    "ONA.C47_executed",
    "ONA.C47_rename",
    "ONA.C47_eleventh"
   ],
   "note": "Over every session of the interface and the shell. Registered names have at least two characters and less than 65536 names are in use; *setopname is treated apart (C47_rename)."
  },
  {
   "property": "C48",
   "status": "proved",
   "theorems": [
    "ONA.C48_threshold",
    "ONA.C48_best",
    "ONA.C48_round",
    "ONA.C48_act",
    "ONA.C48_proposal",
    "ONA.C48_caution",
    "ONA.C48_unconcerned",
    "ONA.C48_warned",
    "ONA.Demo.C48_caution_example"
   ],
   "note": "C48_threshold: Whole system: for every state reachable by NAR_INIT, NAR_AddInput, NAR_AddOperation, NAR_AddInputNarsese and shell commands whose arguments are legal (Spec/API.lean). The others hold in every state satisfying the invariant `Good` of reachable states. The desire reaches (>=) the threshold. Candidates are compared in the states in which they are tried: some links with forgotten preconditions have been removed by then. C48_round and C48_act need a threshold of at least 0."
  },
  {
   "property": "C49",
   "status": "partial",
   "theorems": [
    "ONA.C49_eternal",
    "ONA.C49_declarative",
    "ONA.C49_links_partial",
    "ONA.C49_events",
    "ONA.C49_matches",
    "ONA.C49_last_operation"
   ],
   "note": "Whole system: for every state reachable by NAR_INIT, NAR_AddInput, NAR_AddOperation, NAR_AddInputNarsese and shell commands whose arguments are legal (Spec/API.lean). False for links of the last of ten operations (C49_last_operation, reachable witness): the search skips the last table. C49_events is for exact arithmetic: with rounding the code compares values projected in different ways. What matching means: C49_matches with C29, C30."
  },
  {
   "property": "C50",
   "status": "proved",
   "theorems": [
    "ONA.C50_filter",
    "ONA.C50_derived",
    "ONA.C50_rejected",
    "ONA.C50_accepted",
    "ONA.C51_inference",
    "ONA.C51_link",
    "ONA.Demo.C50_example"
   ],
   "note": "The filters are characterised exactly by a specification over the positions of a term (Spec/Derived); every insertion made by a derivation, by the inference step of a cycle and by the induction of links is an admissible statement. Statements formed outside of these functions (comparison of attribute values, functional equivalence of operations, goals, revision) are not filtered by the code and not covered."
  },
  {
   "property": "C51",
   "status": "partial",
   "theorems": [
    "ONA.C51_pair",
    "ONA.C51_inference",
    "ONA.C51_link",
    "ONA.C51_sequence",
    "ONA.C51_condition_partial",
    "ONA.Demo.C51_example",
    "ONA.Demo.C51_operation_overlap"
   ],
   "note": "Proved for the inference step of a cycle as a whole, for link induction and for sequences. Missing: the code does not check the evidence of an operation against that of its condition; Demo.C51_operation_overlap is a reachable link with the same evidence twice."
  },
  {
   "property": "C52",
   "status": "proved",
   "theorems": [
    "ONA.C52_offset"
   ],
   "note": ""
  },
  {
   "property": "C53",
   "status": "proved",
   "theorems": [
    "ONA.C53_sequence",
    "ONA.C53_induction"
   ],
   "note": ""
  },
  {
   "property": "C54",
   "status": "partial",
   "theorems": [
    "ONA.C54_reset_partial",
    "ONA.C54_init_partial",
    "ONA.C54_import"
   ],
   "note": "False of the code: the import stamp, parameters, random state, statistics and selected events survive (C54_import is a witness). Partial: the reset state is a function of exactly these leftovers, and with equal leftovers every later run is equal."
  },
  {
   "property": "C55",
   "status": "proved",
   "theorems": [
    "ONA.UDPNAR.C55_exclusive",
    "ONA.UDPNAR.C55_serial",
    "ONA.UDPNAR.C55_lines",
    "ONA.UDPNAR.C55_bounded",
    "ONA.UDPNAR.C55_stop",
    "ONA.UDPNAR.C55_reachable",
    "ONA.UDPNAR.C55_session"
   ],
   "note": "Transition system of the three threads with sequentially consistent memory; the reasoner code is an arbitrary tree of small steps. Packets without terminating zero byte are not modelled."
  },
  {
   "property": "C56",
   "status": "proved",
   "theorems": [
    "ONA.C56_truths"
   ],
   "note": "Whole system: for every state reachable by NAR_INIT, NAR_AddInput, NAR_AddOperation, NAR_AddInputNarsese and shell commands whose arguments are legal (Spec/API.lean)."
  },
  {
   "property": "C57",
   "status": "proved",
   "theorems": [
    "ONA.C57_rand_range",
    "ONA.C57_rand_bits"
   ],
   "note": ""
  },
  {
   "property": "C58",
   "status": "proved",
   "theorems": [
    "ONA.C58_prediction",
    "ONA.C58_subgoal",
    "ONA.C58_update",
    "ONA.C58_sequence_subgoal"
   ],
   "note": ""
  },
  {
   "property": "C59",
   "status": "proved",
   "theorems": [
    "ONA.C59_length",
    "ONA.C59_operationTerm_sequence",
    "ONA.C59_operationTerm_other"
   ],
   "note": ""
  },
  {
   "property": "C60",
   "status": "proved",
   "theorems": [
    "ONA.C60_analogy",
    "ONA.C60_negative_distance"
   ],
   "note": "For every positive similarity distance; a negative one (settable by the shell) makes confidences exceed 1 (C60_negative_distance)."
  },
  {
   "property": "C61",
   "status": "partial",
   "theorems": [
    "ONA.C61_implication_partial",
    "ONA.C61_conjunction_partial",
    "ONA.Generalisation.instance_of",
    "ONA.C61_captures"
   ],
   "note": "False if the variables of the term have gaps ($2 without $1): an introduced variable captures an existing one (witness). Proved for all terms without gaps."
  },
  {
   "property": "C62",
   "status": "proved",
   "theorems": [
    "ONA.C62_sentence",
    "ONA.C62_bad_truth"
   ],
   "note": "C62_bad_truth: a malformed truth value is read uninitialised. Exponent and hexadecimal notation of numbers and the dt= prefix are outside the theorem."
  },
  {
   "property": "C63",
   "status": "proved",
   "theorems": [
    "ONA.C63_priorities"
   ],
   "note": "Whole system: for every state reachable by NAR_INIT, NAR_AddInput, NAR_AddOperation, NAR_AddInputNarsese and shell commands whose arguments are legal (Spec/API.lean)."
  },
  {
   "property": "C64",
   "status": "proved",
   "theorems": [
    "ONA.C64_vocabulary"
   ],
   "note": "Whole system: for every state reachable by NAR_INIT, NAR_AddInput, NAR_AddOperation, NAR_AddInputNarsese and shell commands whose arguments are legal (Spec/API.lean)."
  },
  {
   "property": "C65",
   "status": "proved",
   "theorems": [
    "ONA.C65_rules",
    "ONA.C65_reductions"
   ],
   "note": "The rule and reduction tables used by the model are what the modelled generator and parser produce from the rule texts of src/NAL.h, checked by kernel evaluation of the finite table."
  },
  {
   "property": "C66",
   "status": "proved",
   "theorems": [
    "ONA.C66_eternal",
    "ONA.C66_declarative",
    "ONA.C66_links",
    "ONA.C66_events"
   ],
   "note": "Whole system: for every state reachable by NAR_INIT, NAR_AddInput, NAR_AddOperation, NAR_AddInputNarsese and shell commands whose arguments are legal (Spec/API.lean). Links of the last of ten operations are not searched, as in C49."
  },
  {
   "property": "C67",
   "status": "proved",
   "theorems": [
    "ONA.C67_settings"
   ],
   "note": "Whole system: for every state reachable by NAR_INIT, NAR_AddInput, NAR_AddOperation, NAR_AddInputNarsese and shell commands whose arguments are legal (Spec/API.lean)."
  },
  {
   "property": "C68",
   "status": "proved",
   "theorems": [
    "ONA.UDPNAR.C68_no_deadlock",
    "ONA.UDPNAR.C68_no_lost_wakeup",
    "ONA.UDPNAR.C68_stop_returns",
    "ONA.UDPNAR.C68_started",
    "ONA.UDPNAR.C68_dangling_timestep",
    "ONA.UDPNAR.C68_spurious_wakeup"
   ],
   "note": "C68_started needs condition variables without spurious wakeups (C68_spurious_wakeup is the counterexample otherwise). C68_dangling_timestep: the parameter of UDPNAR_Start may be read after its return."
  },
  {
   "property": "C69",
   "status": "proved",
   "theorems": [
    "ONA.C69_session",
    "ONA.C69_quit",
    "ONA.C69_white",
    "ONA.C69_comment",
    "ONA.C69_number",
    "ONA.C69_decimal",
    "ONA.C69_blank",
    "ONA.C69_narsese"
   ],
   "note": "Whole system: for every state reachable by NAR_INIT, NAR_AddInput, NAR_AddOperation, NAR_AddInputNarsese and shell commands whose arguments are legal (Spec/API.lean)."
  },
  {
   "property": "C70",
   "status": "partial",
   "theorems": [
    "ONA.C70_belief_partial",
    "ONA.Demo.C70_full"
   ],
   "note": "proved while the memory has room for concepts; false in a full memory: Demo.C70_full. Whole system: for every state reachable by NAR_INIT, NAR_AddInput, NAR_AddOperation, NAR_AddInputNarsese and shell commands whose arguments are legal (Spec/API.lean)."
  },
  {
   "property": "C71",
   "status": "proved",
   "theorems": [
    "ONA.C71_ends",
    "ONA.C71_internal",
    "ONA.C71_line",
    "ONA.C71_session",
    "ONA.Demo.C71_happens"
   ],
   "note": "the list of abnormal ends is Spec/Abort (Abort, Refuses, LineError); of its 25 abnormal ends nine are shown to happen (Demo.C71_happens), of the others it is not claimed that each does. Whole system: for every state reachable by NAR_INIT, NAR_AddInput, NAR_AddOperation, NAR_AddInputNarsese and shell commands whose arguments are legal (Spec/API.lean)."
  },
  {
   "property": "C72",
   "status": "proved",
   "theorems": [
    "ONA.C72_told",
    "ONA.C72_text",
    "ONA.C72_kept",
    "ONA.C72_ask",
    "ONA.C72_tell_ask",
    "ONA.Demo.C72_happens",
    "ONA.Demo.C72_event_happens"
   ],
   "note": "implications are stored as links (C40); with a full memory the concept may be evicted by the same call (C02), so room is a condition; a clock of -1 makes events eternal. Whole system: for every state reachable by NAR_INIT, NAR_AddInput, NAR_AddOperation, NAR_AddInputNarsese and shell commands whose arguments are legal (Spec/API.lean)."
  },
  {
   "property": "C73",
   "status": "proved",
   "theorems": [
    "ONA.C73_start",
    "ONA.C73_call",
    "ONA.C73_never"
   ],
   "note": "Whole system: for every state reachable by NAR_INIT, NAR_AddInput, NAR_AddOperation, NAR_AddInputNarsese and shell commands whose arguments are legal (Spec/API.lean)."
  },
  {
   "property": "C74",
   "status": "proved",
   "theorems": [
    "ONA.C74_rule",
    "ONA.C74_applies",
    "ONA.C74_reduction",
    "ONA.C74_table",
    "ONA.C74_inference",
    "ONA.C51_pair",
    "ONA.Demo.C74_example"
   ],
   "note": "Soundness and completeness of rule application for all terms; the inference step of a cycle as a whole carries justifications. In the second and third phase of a pair (inferences outside the rule file) the truth of the belief is its present one, which may have changed after the evidence check: this is what the code does."
  },
  {
   "property": "C75",
   "status": "proved",
   "theorems": [
    "ONA.C75_goals",
    "ONA.C75_layer",
    "ONA.C75_visit",
    "ONA.Demo.C75_example"
   ],
   "note": "Soundness for a whole layer of a cycle, completeness for each visit of a concept. That the traversal visits the related concepts is C76. The goal pursued by the concept may be an earlier goal which wins against the selected one (C25), as in the code."
  },
  {
   "property": "C76",
   "status": "proved",
   "theorems": [
    "ONA.C76_event",
    "ONA.C76_noticed",
    "ONA.C76_adopted",
    "ONA.C76_instances",
    "ONA.C76_goal_instances",
    "ONA.C76_goals",
    "ONA.C76_sequence",
    "ONA.Demo.C76_noticed_example",
    "ONA.Demo.C76_adopted_example",
    "ONA.Demo.C76_instances_example",
    "ONA.Demo.C76_goal_instances_example",
    "ONA.Demo.C76_sequence_example"
   ],
   "note": "For the traversals whose action does not create concepts: processing of events, subgoaling, decomposition of sequences. The traversal of inference rules may create and evict concepts on the way and is not covered. A component without variables is compared with its own concept only, as in the code. Events with variables: C76_event. Whole system: for every state reachable by NAR_INIT, NAR_AddInput, NAR_AddOperation, NAR_AddInputNarsese and shell commands whose arguments are legal (Spec/API.lean)."
  },
  {
   "property": "C77",
   "status": "proved",
   "theorems": [
    "ONA.C77_ends",
    "ONA.C77_larger",
    "ONA.C77_same",
    "ONA.C77_session",
    "ONA.Demo.C77_example"
   ],
   "note": "The model bounds each loop and the nesting of cycles by a number (Fuel) and fails with the error fuel beyond it; C77 says that with Fuel.Covers (a number depending on the size of the memory only) this error does not occur. The recursion of Memory_AddEvent is bounded by the stack; using it up is an abnormal end in C71 (it can happen: a belief with an empty stamp, src/Decision.c 40, revises itself). Whole system: for every state reachable by NAR_INIT, NAR_AddInput, NAR_AddOperation, NAR_AddInputNarsese and shell commands whose arguments are legal (Spec/API.lean)."
  },
  {
   "property": "C78",
   "status": "proved",
   "theorems": [
    "ONA.C78_told",
    "ONA.C78_learned",
    "ONA.Reachable.settled",
    "ONA.Demo.C78_example"
   ],
   "note": "Learning of links with an operation (preconditions from single events). The hypothesis HasRoom excludes full memories, where concepts may be evicted in between (findings 10, 36); a full table may reject the link. Whole system: for every state reachable by NAR_INIT, NAR_AddInput, NAR_AddOperation, NAR_AddInputNarsese and shell commands whose arguments are legal (Spec/API.lean)."
  },
  {
   "property": "C79",
   "status": "proved",
   "theorems": [
    "ONA.C79_anticipate",
    "ONA.C79_weaker",
    "ONA.Demo.C79_example"
   ],
   "note": "For every state satisfying the invariant `Good` of reachable states (Reachable.good). That the sweep visits every concept exactly once is false of the code: concepts created meanwhile reorder the queue which is traversed; the theorem says which ones are visited. C79_weaker is for the non-declarative use, exact arithmetic and memories with room (rounding may raise a frequency by an ulp)."
  },
  {
   "property": "C80",
   "status": "proved",
   "theorems": [
    "ONA.C80_forgetting",
    "ONA.C80_cycle",
    "ONA.C80_told",
    "ONA.C80_cycles",
    "ONA.C80_ranked",
    "ONA.C80_evicted",
    "ONA.Demo.C80_example",
    "ONA.Demo.C80_stale"
   ],
   "note": "Whole system: for every state reachable by NAR_INIT, NAR_AddInput, NAR_AddOperation, NAR_AddInputNarsese and shell commands whose arguments are legal (Spec/API.lean). C80_forgetting and C80_cycle hold for every state satisfying the invariant `Good` of reachable states (Reachable.good)."
  },
  {
   "property": "C81",
   "status": "proved",
   "theorems": [
    "ONA.C81_compared",
    "ONA.Demo.C81_example",
    "ONA.Demo.C81_junk"
   ],
   "note": "For every vocabulary with the names of NAR_INIT (all reachable ones, Reachable.good) and every term without gaps (all parsed ones, C34). For compound attributes the code does not build the intended term (Demo.C81_junk), so these are not among the inputs the property is about."
  },
  {
   "property": "C82",
   "status": "proved",
   "theorems": [
    "ONA.C82_compared",
    "ONA.C82_executed",
    "ONA.Demo.C82_example"
   ],
   "note": "For every state with the invariant of reachable states (Reachable.good) and every link with the properties of stored links. The table is read anew for every comparison, as in the code: the places 0, 1, ... of the table as it is at that time."
  },
  {
   "property": "C83",
   "status": "proved",
   "theorems": [
    "ONA.C83_asked",
    "ONA.Demo.C83_example",
    "ONA.Demo.C83_example_unknown"
   ],
   "note": "For every reachable state (Reachable) and every text read as a question. For implications only the first part: what is printed may be a link while the concept named like the question gets attention; C49 says what is printed."
  },
  {
   "property": "C84",
   "status": "proved",
   "theorems": [
    "ONA.C84_operation",
    "ONA.C84_executed",
    "ONA.C84_statement",
    "ONA.Demo.C84_example"
   ],
   "note": "For every state with the invariant of reachable states (Reachable.good) and every decision with the properties of made decisions (Decision.Ok, established in Proofs/ClosedDecision). Compound operations are not configured (MAX_COMPOUND_OP_LEN = 1)."
  },
  {
   "property": "C85",
   "status": "partial",
   "theorems": [
    "ONA.C85_stats",
    "ONA.C85_time0",
    "ONA.C85_concepts_partial",
    "ONA.C85_beliefs",
    "ONA.C85_goals",
    "ONA.C85_index",
    "ONA.C85_operations",
    "ONA.C85_nothing_changes",
    "ONA.C85_no_failure",
    "ONA.C85_last_operation"
   ],
   "note": "Missing because false of the code: *concepts prints the links of the operations 0 to 9 only (src/Shell.c 199), so links of the tenth operation are not listed (C85_last_operation); *stats divides by zero if the clock was set to 0 (C85_time0). The average of the goal events is the sum over all layers divided by the size of one layer and is not bounded by 1."
  },
  {
   "property": "C86",
   "status": "partial",
   "theorems": [
    "ONA.C86_same",
    "ONA.C86_told_partial",
    "ONA.C86_refused",
    "ONA.C86_goal",
    "ONA.C86_derived",
    "ONA.C86_subgoal",
    "ONA.C86_revised",
    "ONA.C86_link",
    "ONA.C86_silent",
    "ONA.C86_loud",
    "ONA.C86_volume",
    "ONA.C86_selected",
    "ONA.Demo.C86_twice"
   ],
   "note": "Missing because false of the code: a told ==> statement is announced as Input twice, as a link and as a belief (Demo.C86_twice). The exact lines are stated for events, goals, beliefs other than ==> and temporal links; for ==> only C86_same and C86_silent. Line Selected for goals and the Derived line of Decision.c 669 are not modelled."
  },
  {
   "property": "C87",
   "status": "proved",
   "theorems": [
    "ONA.C87_added",
    "ONA.C87_told",
    "ONA.C87_not_in_the_future"
   ],
   "note": "Stated for events and beliefs other than implications, while the memory is not full, like C86."
  },
  {
   "property": "C88",
   "status": "proved",
   "theorems": [
    "ONA.C88_ignored",
    "ONA.C88_offered",
    "ONA.C88_total"
   ],
   "note": "Good n s holds in all reachable states (Reachable.good)."
  },
  {
   "property": "C89",
   "status": "proved",
   "theorems": [
    "ONA.C89_selected",
    "ONA.C89_selected_goal",
    "ONA.C89_anew",
    "ONA.C89_moves",
    "ONA.C89_not_lost",
    "ONA.C89_goal_not_lost"
   ],
   "note": "Whole system: for every state reachable by legal API calls and every legal call (Spec/API.lean)."
  }
 ]
}