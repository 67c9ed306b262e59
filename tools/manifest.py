import json
C=[]
def c(p,s,t,n=""): C.append(dict(property=p,status=s,theorems=["ONA."+x for x in t],note=n))
c("C01","proved",["C01_bucket_in_range","Globals_Hash_nonneg"])
c("C02","proved",["C02_finite_map"])
c("C03","proved",["C03_pool","C03_full"])
c("C04","partial",["C04_delete_absent_partial","C04_delete_absent_crashes","C04_delete_absent_removes_other"],"The property is false of the code: two witnesses; the partial theorem gives the case in which it holds.")
c("C05","proved",["C05_init","C05_push","C05_pop","C05_isEmpty","C05_history"])
c("C06","proved",["C06_queue_refines_bag","C06_popMin","C06_popMax"])
c("C07","proved",["C07_bounded","C07_push"])
c("C08","proved",["C08_slots"])
c("C09","proved",["C09_rebuild"])
c("C10","partial",["C10_popAt_breaks_order","C10_popAt_partial"],"The property is false of the code (witness); the partial theorem gives the positions for which it holds.")
c("C16","proved",["C16_make","C16_only_premises","C16_complete","C16_newest_kept"])
c("C17","proved",["C17_overlap_iff","C17_overlap_symm"])
c("C18","proved",["C18_equal_iff","C18_equal_symm","Stamp_Equal_iff","C18_duplicates_not_symmetric"])
c("C20","proved",["C20_truth_functions","C20_confidence_bound","C20_eternalize","C20_expectation","binary64_doubles","binary64_nearest","binary64_even"],"for every arithmetic with the laws of class Arith; IEEE binary64 (round to nearest even, no overflow) is one: binary64, whose values and rounding are characterised by the binary64_* theorems")
c("C21","proved",["C21_revision"])
c("C22","partial",["C22_revision_defined_partial","C22_revision_undefined"],"False at the borders (witnesses); the partial theorem gives the premises for which revision is defined.")
c("C23","proved",["C23_projection"])
c("C24","proved",["C24_strong","C24_weak","C24_other"])
c("C57","proved",["C57_rand_range","C57_rand_bits"])
c("C14","proved",["OccurrenceTimeIndex.C14_kth_newest","C14_reachable"],"C14_reachable: in every reachable state the index answers like the list of additions since the last reset")
c("C27","proved",["C27_term_equal","C27_stale_cache"])
c("C28","proved",["C28_extract","C28_extract_closed","C28_override","C28_roundtrip"])
c("C32","proved",["C32_names","C32_stable","C32_copula_index","C32_initial_index","C32_copulaEquals","C32_calls","C32_same_reachable","C32_copulaEquals_reachable","C32_initial_reachable"],"C32_calls and *_reachable: across all calls of the interface and shell commands")
c("C33","partial",["C33_capacity_partial","C33_last_atom_is_zero","C33_overflow"],"False for the 65536th name (witness): its index truncates to atom 0. The partial theorem covers sessions of up to 65535 names.")
c("C45","proved",["C45_range","C45_use","C45_order"])
c("C11","proved",["C11_table","C11_remove","C11_add_new","C11_memory"],"C11_memory: every table of every concept in every reachable state of the whole system.")
c("C12","proved",["C12_merge"])
c("C13","partial",["C13_disjoint_partial","C13_double_counted"],"False of the code: Table_AddAndRevise has no overlap check (witness). The partial theorem covers disjoint evidence.")
c("C19","proved",["C19_independent","C19_import"])
c("C25","proved",["C25_choice","C25_revision","C25_empty","C25_pooled_only_if_disjoint"])
c("C26","partial",["C26_no_abort_partial","C26_abort","C26_abort_reachable"],"False for confidences above 0.99 (reachable witness). The partial theorem covers confidences in (0, 0.99].")
c("C52","proved",["C52_offset"])
c("C53","proved",["C53_sequence","C53_induction"])
c("C15","proved",["C15_exact","C15_pool"])
c("C58","proved",["C58_prediction","C58_subgoal","C58_update","C58_sequence_subgoal"])
c("C59","proved",["C59_length","C59_operationTerm_sequence","C59_operationTerm_other"])
c("C29","proved",["C29_instance","C29_sound"])
c("C30","proved",["C30_complete"])
c("C31","partial",["C31_normalize_partial","C31_alpha_partial","C31_idempotent_partial","C31_merges"],"False of the code when a variable already named like a normalised one must get a larger number: variables are merged (witness). The partial theorems cover all other terms with at most nine variables per kind.")
c("C60","proved",["C60_analogy","C60_negative_distance"],"For every positive similarity distance; a negative one (settable by the shell) makes confidences exceed 1 (C60_negative_distance).")
c("C61","partial",["C61_implication_partial","C61_conjunction_partial","Generalisation.instance_of","C61_captures"],"False if the variables of the term have gaps ($2 without $1): an introduced variable captures an existing one (witness). Proved for all terms without gaps.")
c("C34","proved",["C34_parse","C34_parse_ground","C34_notations"],"Texts within the length limit, names known or room for new ones. With variables the result is the normalised term (C31).")
c("C35","proved",["C35_print","C35_roundtrip","C35_injective"],"Terms with variables are read back normalised.")
c("C36","partial",["C36_bounds_partial","C36_deep","C36_tokens","C36_empty"],"False in general: 8 nested compounds write outside the term, 1075 brackets outside the token array, an empty text dereferences NULL (witnesses in every session). Proved for texts with at most 6 opening brackets and 1074 characters.")
c("C62","proved",["C62_sentence","C62_bad_truth"],"C62_bad_truth: a malformed truth value is read uninitialised. Exponent and hexadecimal notation of numbers and the dt= prefix are outside the theorem.")
c("C37","proved",["C37_map","C37_create","MemHistory.inv","C37_memory"],"C37_memory: for every state reachable by calls of the interface and shell commands. The others: for every history of the concept memory (creating concepts, changing their content, new priorities of at most 1).")
c("C38","proved",["C38_forget","C38_room","C38_reachable","Demo.C38_reachable_example"],"C38_reachable: in every state reachable by calls of the interface and shell commands")
c("C39","proved",["C39_links","C39_calls"],"C39_calls: over any call of the interface, from any reachable state.")
W="Whole system: for every state reachable by NAR_INIT, NAR_AddInput, NAR_AddOperation, NAR_AddInputNarsese and shell commands whose arguments are legal (Spec/API.lean)."
c("C41","proved",["C41_stored","C41_weak","C41_weak_total"],W)
c("C42","proved",["C42_stored","C42_refused"],W)
c("C43","proved",["C43_buffers","C43_buffers_sizes","C43_layer"],W)
c("C44","proved",["C44_confidence"],W+" The bound on confidences is not needed for concepts' beliefs: choice keeps the more confident one.")
c("C46","proved",["C46_cycles","C46_input","C46_sentence","C46_monotone"],W+" The clock advances by the requested cycles plus at most one for each executed operation.")
c("C56","proved",["C56_truths"],W)
c("C63","proved",["C63_priorities"],W)
c("C64","proved",["C64_vocabulary"],W)
c("C49","partial",["C49_eternal","C49_declarative","C49_links_partial","C49_events","C49_matches","C49_last_operation"],W+" False for links of the last of ten operations (C49_last_operation, reachable witness): the search skips the last table. C49_events is for exact arithmetic: with rounding the code compares values projected in different ways. What matching means: C49_matches with C29, C30.")
c("C65","proved",["C65_rules","C65_reductions"],"The rule and reduction tables used by the model are what the modelled generator and parser produce from the rule texts of src/NAL.h, checked by kernel evaluation of the finite table.")
c("C66","proved",["C66_eternal","C66_declarative","C66_links","C66_events"],W+" Links of the last of ten operations are not searched, as in C49.")
c("C47","proved",["C47_ids","C47_stable","C47_limit","C47_executed","C47_rename","C47_eleventh"],"Over every session of the interface and the shell. Registered names have at least two characters and less than 65536 names are in use; *setopname is treated apart (C47_rename).")
c("C54","partial",["C54_reset_partial","C54_init_partial","C54_import"],"False of the code: the import stamp, parameters, random state, statistics and selected events survive (C54_import is a witness). Partial: the reset state is a function of exactly these leftovers, and with equal leftovers every later run is equal.")
c("C55","proved",["UDPNAR.C55_exclusive","UDPNAR.C55_serial","UDPNAR.C55_lines","UDPNAR.C55_bounded","UDPNAR.C55_stop","UDPNAR.C55_reachable","UDPNAR.C55_session"],"Transition system of the three threads with sequentially consistent memory; the reasoner code is an arbitrary tree of small steps. Packets without terminating zero byte are not modelled.")
c("C67","proved",["C67_settings"],W)
c("C68","proved",["UDPNAR.C68_no_deadlock","UDPNAR.C68_no_lost_wakeup","UDPNAR.C68_stop_returns","UDPNAR.C68_started","UDPNAR.C68_dangling_timestep","UDPNAR.C68_spurious_wakeup"],"C68_started needs condition variables without spurious wakeups (C68_spurious_wakeup is the counterexample otherwise). C68_dangling_timestep: the parameter of UDPNAR_Start may be read after its return.")
c("C69","proved",["C69_session","C69_quit","C69_white","C69_comment","C69_number","C69_decimal","C69_blank","C69_narsese"],W)
c("C48","proved",["C48_threshold","C48_best","C48_round","C48_act","C48_proposal","C48_caution","C48_unconcerned","C48_warned","Demo.C48_caution_example"],"C48_threshold: "+W+" The others hold in every state satisfying the invariant `Good` of reachable states. The desire reaches (>=) the threshold. Candidates are compared in the states in which they are tried: some links with forgotten preconditions have been removed by then. C48_round and C48_act need a threshold of at least 0.")
c("C50","proved",["C50_filter","C50_derived","C50_rejected","C50_accepted","C51_inference","C51_link","Demo.C50_example"],"The filters are characterised exactly by a specification over the positions of a term (Spec/Derived); every insertion made by a derivation, by the inference step of a cycle and by the induction of links is an admissible statement. Statements formed outside of these functions (comparison of attribute values, functional equivalence of operations, goals, revision) are not filtered by the code and not covered.")
c("C51","partial",["C51_pair","C51_inference","C51_link","C51_sequence","C51_condition_partial","Demo.C51_example","Demo.C51_operation_overlap"],"Proved for the inference step of a cycle as a whole, for link induction and for sequences. Missing: the code does not check the evidence of an operation against that of its condition; Demo.C51_operation_overlap is a reachable link with the same evidence twice.")
c("C40","partial",["C40_home_partial","C40_found_partial","C40_narsese_partial","C40_kept_partial","Demo.C40_full","Demo.C40_example"],"proved while the memory has room for concepts (links about operations of other agents are not stored at all); false in a full memory: Demo.C40_full. "+W)
c("C70","partial",["C70_belief_partial","Demo.C70_full"],"proved while the memory has room for concepts; false in a full memory: Demo.C70_full. "+W)
c("C71","proved",["C71_ends","C71_internal","C71_line","C71_session","Demo.C71_happens"],"the list of abnormal ends is Spec/Abort (Abort, Refuses, LineError); of its 25 abnormal ends nine are shown to happen (Demo.C71_happens), of the others it is not claimed that each does. "+W)
c("C72","proved",["C72_told","C72_text","C72_kept","C72_ask","C72_tell_ask","Demo.C72_happens","Demo.C72_event_happens"],"implications are stored as links (C40); with a full memory the concept may be evicted by the same call (C02), so room is a condition; a clock of -1 makes events eternal. "+W)
c("C73","proved",["C73_start","C73_call","C73_never"],W)
c("C74","proved",["C74_rule","C74_applies","C74_reduction","C74_table","C74_inference","C51_pair","Demo.C74_example"],"Soundness and completeness of rule application for all terms; the inference step of a cycle as a whole carries justifications. In the second and third phase of a pair (inferences outside the rule file) the truth of the belief is its present one, which may have changed after the evidence check: this is what the code does.")
c("C75","proved",["C75_goals","C75_layer","C75_visit","Demo.C75_example"],"Soundness for a whole layer of a cycle, completeness for each visit of a concept. That the traversal visits the related concepts is C76. The goal pursued by the concept may be an earlier goal which wins against the selected one (C25), as in the code.")
c("C76","proved",["C76_event","C76_noticed","C76_adopted","C76_instances","C76_goal_instances","C76_goals","C76_sequence","Demo.C76_noticed_example","Demo.C76_adopted_example","Demo.C76_instances_example","Demo.C76_goal_instances_example","Demo.C76_sequence_example"],"For the traversals whose action does not create concepts: processing of events, subgoaling, decomposition of sequences. The traversal of inference rules may create and evict concepts on the way and is not covered. A component without variables is compared with its own concept only, as in the code. Events with variables: C76_event. "+W)
c("C77","proved",["C77_ends","C77_larger","C77_same","C77_session","Demo.C77_example"],"The model bounds each loop and the nesting of cycles by a number (Fuel) and fails with the error fuel beyond it; C77 says that with Fuel.Covers (a number depending on the size of the memory only) this error does not occur. The recursion of Memory_AddEvent is bounded by the stack; using it up is an abnormal end in C71 (it can happen: a belief with an empty stamp, src/Decision.c 40, revises itself). "+W)
c("C78","proved",["C78_told","C78_learned","Reachable.settled","Demo.C78_example"],"Learning of links with an operation (preconditions from single events). The hypothesis HasRoom excludes full memories, where concepts may be evicted in between (findings 10, 36); a full table may reject the link. "+W)
c("C79","proved",["C79_anticipate","C79_weaker","Demo.C79_example"],"For every state satisfying the invariant `Good` of reachable states (Reachable.good). That the sweep visits every concept exactly once is false of the code: concepts created meanwhile reorder the queue which is traversed; the theorem says which ones are visited. C79_weaker is for the non-declarative use, exact arithmetic and memories with room (rounding may raise a frequency by an ulp).")
c("C80","proved",["C80_forgetting","C80_cycle","C80_told","C80_cycles","C80_ranked","C80_evicted","Demo.C80_example","Demo.C80_stale"],W+" C80_forgetting and C80_cycle hold for every state satisfying the invariant `Good` of reachable states (Reachable.good).")
c("C81","proved",["C81_compared","Demo.C81_example","Demo.C81_junk"],"For every vocabulary with the names of NAR_INIT (all reachable ones, Reachable.good) and every term without gaps (all parsed ones, C34). For compound attributes the code does not build the intended term (Demo.C81_junk), so these are not among the inputs the property is about.")
c("C82","proved",["C82_compared","C82_executed","Demo.C82_example"],"For every state with the invariant of reachable states (Reachable.good) and every link with the properties of stored links. The table is read anew for every comparison, as in the code: the places 0, 1, ... of the table as it is at that time.")
c("C83","proved",["C83_asked","Demo.C83_example","Demo.C83_example_unknown"],"For every reachable state (Reachable) and every text read as a question. For implications only the first part: what is printed may be a link while the concept named like the question gets attention; C49 says what is printed.")
c("C84","proved",["C84_operation","C84_executed","C84_statement","Demo.C84_example"],"For every state with the invariant of reachable states (Reachable.good) and every decision with the properties of made decisions (Decision.Ok, established in Proofs/ClosedDecision). Compound operations are not configured (MAX_COMPOUND_OP_LEN = 1).")
c("C85","partial",["C85_stats","C85_time0","C85_concepts_partial","C85_beliefs","C85_goals","C85_index","C85_operations","C85_nothing_changes","C85_no_failure","C85_last_operation"],"Missing because false of the code: *concepts prints the links of the operations 0 to 9 only (src/Shell.c 199), so links of the tenth operation are not listed (C85_last_operation); *stats divides by zero if the clock was set to 0 (C85_time0). The average of the goal events is the sum over all layers divided by the size of one layer and is not bounded by 1.")
c("C86","partial",["C86_same","C86_told_partial","C86_refused","C86_goal","C86_derived","C86_subgoal","C86_revised","C86_link","C86_silent","C86_loud","C86_volume","C86_selected","Demo.C86_twice"],"Missing because false of the code: a told ==> statement is announced as Input twice, as a link and as a belief (Demo.C86_twice). The exact lines are stated for events, goals, beliefs other than ==> and temporal links; for ==> only C86_same and C86_silent. Line Selected for goals and the Derived line of Decision.c 669 are not modelled.")
c("C87","proved",["C87_added","C87_told","C87_not_in_the_future"],"Stated for events and beliefs other than implications, while the memory is not full, like C86.")
c("C88","proved",["C88_ignored","C88_offered","C88_total"],"Good n s holds in all reachable states (Reachable.good).")
c("C89","proved",["C89_selected","C89_selected_goal","C89_anew","C89_moves","C89_not_lost","C89_goal_not_lost"],"Whole system: for every state reachable by legal API calls and every legal call (Spec/API.lean).")
C.sort(key=lambda x:x["property"])
json.dump({"claims":C},open("/verif/MANIFEST.json","w"),indent=1)
