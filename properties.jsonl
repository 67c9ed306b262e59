{"id": "C01", "title": "Hash bucket always in range", "statement": "Hashing any term or any name and reducing it modulo the (positive) number of buckets yields an index inside the bucket array, so no lookup, insertion or deletion ever reads outside it, although the hash is a signed 64-bit integer and C's % can be negative.", "quantifier": "every content of a term (64 atoms), every name buffer, every positive bucket count", "why_tests_cant": "2^1024 term contents; a negative remainder would be a rare wild access", "anchors": ["src/Globals.c: Globals_Hash", "src/Term.c: Term_Hash", "src/Narsese.c: Narsese_StringHash", "src/HashTable.c: HashTable_Get, HashTable_Set, HashTable_Delete"]}
{"id": "C02", "title": "Hash table behaves as a finite map", "statement": "After any sequence of set, get and delete-of-present-key operations, a lookup of a key returns exactly the value last set for an equal key and not deleted since, and NULL if there is none.", "quantifier": "every hash/equality pair that is coherent, every operation sequence, every collision pattern", "why_tests_cant": "collision-chain shapes and operation orders are unbounded", "anchors": ["src/HashTable.c: HashTable_INIT, HashTable_Get, HashTable_Set, HashTable_Delete"]}
{"id": "C03", "title": "Hash table node pool never leaks or aliases", "statement": "In every reachable state the number of stored keys plus the number of free nodes equals the capacity, each node is either free or in exactly one chain, up to capacity distinct keys can always be inserted, and inserting one more aborts with the stack-underflow assertion instead of overwriting an entry.", "quantifier": "every operation sequence", "why_tests_cant": "leaks only show up after long histories", "anchors": ["src/HashTable.c", "src/Stack.c"]}
{"id": "C04", "title": "Deleting an absent key is harmless", "statement": "Deleting a key that is not in the table leaves every other entry intact and does not crash.", "quantifier": "every table state and absent key", "why_tests_cant": "tests only delete keys known to be present", "anchors": ["src/HashTable.c: HashTable_Delete"]}
{"id": "C05", "title": "Stack is LIFO and bounds-checked", "statement": "Pop returns the most recently pushed item not yet popped; pushing beyond capacity or popping an empty stack terminates with an assertion.", "quantifier": "every push/pop sequence", "why_tests_cant": "unbounded sequences", "anchors": ["src/Stack.c: Stack_INIT, Stack_Push, Stack_Pop, Stack_IsEmpty"]}
{"id": "C06", "title": "Priority queue pops extremes", "statement": "After any history of pushes and pops, popping the maximum returns an item of highest priority among those queued, popping the minimum one of lowest priority, and both remove exactly that item.", "quantifier": "every queue size and every history of push/pop-min/pop-max/rebuild, including equal priorities", "why_tests_cant": "heap shapes are unbounded; an ordering slip surfaces only in particular shapes", "anchors": ["src/PriorityQueue.c: PriorityQueue_PopMin, PriorityQueue_PopMax, PriorityQueue_Push, trickleDown, bubbleUp"]}
{"id": "C07", "title": "Priority queue capacity and eviction policy", "statement": "The queue never holds more than its maximum; a push into a full queue is rejected exactly when its priority is below the current minimum and otherwise evicts exactly one item of minimal priority, and a push into a non-full queue always succeeds without eviction.", "quantifier": "every queue state and priority", "why_tests_cant": "needs all states", "anchors": ["src/PriorityQueue.c: PriorityQueue_Push"]}
{"id": "C08", "title": "Priority queue slots are never shared", "statement": "The storage addresses handed out by the queue stay a permutation of the initial ones: two queued items never share a slot and an evicted slot is reused only by the item replacing it.", "quantifier": "every history", "why_tests_cant": "aliasing appears only after particular eviction orders", "anchors": ["src/PriorityQueue.c", "src/Memory.c: Memory_ResetEvents, Memory_ResetConcepts"]}
{"id": "C09", "title": "Rebuild restores queue order after arbitrary re-prioritisation", "statement": "If the priorities of all queued items are overwritten with arbitrary values and the queue is rebuilt, it holds the same items and pops extremes correctly again.", "quantifier": "every assignment of new priorities, every size", "why_tests_cant": "all permutations of priorities", "anchors": ["src/PriorityQueue.c: PriorityQueue_Rebuild", "src/Cycle.c: Cycle_RelativeForgetting"]}
{"id": "C10", "title": "Removing an arbitrary queue position keeps the queue usable", "statement": "Removing the item at any position keeps the remaining items correctly ordered for later pops.", "quantifier": "every position and heap", "why_tests_cant": "only a few positions get tested", "anchors": ["src/PriorityQueue.c: PriorityQueue_PopAt"]}
{"id": "C11", "title": "Implication table is bounded, ordered by expectation and free of duplicates", "statement": "After any sequence of add-and-revise operations a table holds at most TABLE_SIZE entries, pairwise different terms, in non-increasing truth expectation, and a new link is refused only if the table is full of links at least as strong.", "quantifier": "every sequence of links with truth values the system accepts", "why_tests_cant": "unbounded histories", "anchors": ["src/Table.c: Table_Add, Table_Remove, Table_AddAndRevise"]}
{"id": "C12", "title": "Adding a known link merges its evidence", "statement": "Adding a link whose term is already stored replaces that entry by the revision of both truth values, never fails, and leaves all other entries unchanged.", "quantifier": "every table and link", "why_tests_cant": "needs all tables", "anchors": ["src/Table.c: Table_AddAndRevise", "src/Inference.c: Inference_ImplicationRevision"]}
{"id": "C13", "title": "Evidence is not counted twice in link revision", "statement": "Adding a link whose evidential base overlaps the stored one does not raise its confidence as if the evidence were independent.", "quantifier": "every pair of links with overlapping stamps", "why_tests_cant": "the interplay of stamps and tables is not covered by tests", "anchors": ["src/Table.c: Table_AddAndRevise (comment 'or apply choice if overlap')"]}
{"id": "C14", "title": "Occurrence time index returns the k-th newest concept", "statement": "Asking for the k-th newest element returns the concept added k additions ago, for every k below the number of additions and the index capacity, across any number of wrap-arounds; other k in range yield no concept.", "quantifier": "every addition history, every k", "why_tests_cant": "wrap-around positions", "anchors": ["src/OccurrenceTimeIndex.c"]}
{"id": "C15", "title": "Inverted atom index is exact", "statement": "After any sequence of adding and removing concepts, the chain of an atom contains each stored concept whose first UNIFICATION_DEPTH atoms contain that simple atom exactly once, and no other concept; its node pool never runs out while at most CONCEPTS_MAX concepts are stored.", "quantifier": "every history of additions and removals", "why_tests_cant": "all index histories", "anchors": ["src/InvertedAtomIndex.c"]}
{"id": "C16", "title": "Merged stamps contain exactly the premises' evidence", "statement": "The stamp of a conclusion lists only evidence ids of its premises, alternating between them, contains all of them when they fit, and otherwise the newest-first interleaved prefix.", "quantifier": "every pair of stamps", "why_tests_cant": "all pairs of stamps", "anchors": ["src/Stamp.c: Stamp_make"]}
{"id": "C17", "title": "Evidence overlap is detected exactly", "statement": "Overlap is reported iff the two stamps share an evidence id, independent of argument order.", "quantifier": "every pair of stamps", "why_tests_cant": "all pairs", "anchors": ["src/Stamp.c: Stamp_checkOverlap"]}
{"id": "C18", "title": "Stamp equality is set equality", "statement": "Two stamps with distinct ids compare equal iff they contain the same ids, and the comparison is symmetric.", "quantifier": "every pair of stamps", "why_tests_cant": "all pairs", "anchors": ["src/Stamp.c: Stamp_Equal"]}
{"id": "C19", "title": "Independent inputs get disjoint evidence", "statement": "Without explicit stamp import, any two input events of a session have non-overlapping stamps, so they can be revised with each other.", "quantifier": "every sequence of inputs", "why_tests_cant": "long sessions", "anchors": ["src/Event.c: Event_InputEvent, Event_INIT"]}
{"id": "C20", "title": "Truth functions stay within the unit square", "statement": "Every truth function maps premises with frequency in [0,1] and confidence in [0,1) to such a truth value, under any rounding of the intermediate results that is monotone and fixes representable constants.", "quantifier": "all premise truth values (continuous domain), every monotone rounding", "why_tests_cant": "continuous domain", "anchors": ["src/Truth.c"]}
{"id": "C21", "title": "Revision accumulates evidence", "statement": "Revision is commutative in exact arithmetic, adds the evidence weights of its premises, its confidence is at least that of both premises (up to the maximum confidence cap), its frequency lies between the premises' frequencies.", "quantifier": "all premise truth values", "why_tests_cant": "continuous domain", "anchors": ["src/Truth.c: Truth_Revision, Truth_c2w, Truth_w2c"]}
{"id": "C22", "title": "Revision is always defined", "statement": "Revising any two truth values a user can enter yields a truth value (no division by zero).", "quantifier": "all truth values including the borders 0 and 1", "why_tests_cant": "border values of a continuous domain", "anchors": ["src/Truth.c: Truth_Revision, Truth_c2w", "src/Narsese.c: Narsese_Sentence"]}
{"id": "C23", "title": "Projection only weakens, eternal is unaffected", "statement": "Projecting a truth value to another time keeps the frequency, never raises confidence, weakens more with larger distance, is the identity at distance zero and for eternal statements.", "quantifier": "all truth values and times", "why_tests_cant": "continuous domain", "anchors": ["src/Truth.c: Truth_Projection"]}
{"id": "C24", "title": "Truth functions compute the NAL definitions", "statement": "Each truth function equals its extended-boolean / evidence-weight definition in the NAL book.", "quantifier": "all truth values", "why_tests_cant": "continuous domain", "anchors": ["src/Truth.c"]}
{"id": "C25", "title": "Revision-or-choice never weakens and never double counts", "statement": "Combining a stored with an incoming event keeps the stronger one when the evidence overlaps, the times differ, or the terms differ, and revises only disjoint evidence; the result is never less confident than the stored event.", "quantifier": "every pair of events with confidences below the maximum", "why_tests_cant": "combinatorial case space", "anchors": ["src/Inference.c: Inference_RevisionAndChoice"]}
{"id": "C26", "title": "No accepted input confidence aborts the system", "statement": "Entering the same eternal statement twice never terminates the process, whatever confidence in [0,1] the user supplies.", "quantifier": "all input confidences", "why_tests_cant": "continuous domain; boundary above 0.99", "anchors": ["src/Inference.c: Inference_RevisionAndChoice line 175", "src/Truth.c: Truth_Revision"]}
{"id": "C27", "title": "Terms compare equal exactly when they have the same structure", "statement": "Term comparison, which goes through a cached hash, returns true iff all atoms agree, for any history of constructing, editing and hashing the terms.", "quantifier": "every pair of terms, every history of operations on them", "why_tests_cant": "stale hash bugs need particular operation orders", "anchors": ["src/Term.c: Term_Equal, Term_Hash, Term_OverrideSubterm, Term_ExtractSubterm", "src/Variable.c: Variable_Normalize"]}
{"id": "C28", "title": "Subterm extraction and insertion are inverse", "statement": "Extracting a subterm never fails; inserting a subterm at a position succeeds iff it fits into the term size, and then extracting that position of an initially empty place returns the inserted term, leaving all positions outside that subtree unchanged.", "quantifier": "every term, subterm and position", "why_tests_cant": "2^1024 terms", "anchors": ["src/Term.c: Term_OverrideSubterm, Term_ExtractSubterm"]}
{"id": "C29", "title": "Unification is sound", "statement": "If unification of a general with a specific variable-free term succeeds, applying the substitution to the general term yields exactly the specific term; a variable never gets two different bindings.", "quantifier": "every well-formed pair of terms", "why_tests_cant": "all pairs of terms", "anchors": ["src/Variable.c: Variable_Unify, Variable_ApplySubstitute"]}
{"id": "C30", "title": "Unification is complete for substitution instances", "statement": "If some assignment of terms to the variables turns the general term into the specific term (respecting the query-variable and set-terminator restrictions), unification succeeds.", "quantifier": "every well-formed pair of terms", "why_tests_cant": "all pairs of terms", "anchors": ["src/Variable.c: Variable_Unify2"]}
{"id": "C31", "title": "Variable normalisation is a consistent renaming", "statement": "Normalising a term renames variables consistently by kind in order of first occurrence to $1.., #1.., ?1.., so alpha-equivalent inputs become identical, and leaves everything else unchanged.", "quantifier": "every term with at most nine variables per kind", "why_tests_cant": "all variable patterns", "anchors": ["src/Variable.c: Variable_Normalize"]}
{"id": "C32", "title": "Names and atoms correspond one to one", "statement": "Within a session, equal names always yield the same atom, names that differ within the first 31 characters yield different atoms, atoms are never 0, and an atom's name never changes.", "quantifier": "every sequence of names up to the atom capacity", "why_tests_cant": "hash collisions and long sessions", "anchors": ["src/Narsese.c: Narsese_AtomicTermIndex, Narsese_INIT, Narsese_StringHash, Narsese_StringEqual"]}
{"id": "C33", "title": "Atom capacity is handled", "statement": "The system accepts ATOMS_MAX distinct names, all with distinct non-zero atoms.", "quantifier": "the session that exhausts the atom table", "why_tests_cant": "needs 65536 names; truncation to unsigned short", "anchors": ["src/Narsese.c: Narsese_AtomicTermIndex", "src/Config.h: ATOMS_MAX, Atom"]}
{"id": "C34", "title": "Parsing yields the tree of the sentence", "statement": "For every well-formed Narsese term whose tree fits, parsing produces exactly the binary-heap encoding of its syntax tree, for infix and prefix notation.", "quantifier": "every term tree that fits into 64 slots", "why_tests_cant": "all syntax trees", "anchors": ["src/Narsese.c: Narsese_Expand, Narsese_PrefixTransform, buildBinaryTree, Narsese_Term"]}
{"id": "C35", "title": "Printing loses nothing", "statement": "Printing a term prints all of its atoms, so parsing the printed text gives the term back.", "quantifier": "every well-formed term (names, compounds with one or two components, sets) that fits into 64 slots", "why_tests_cant": "all trees, including the last array slot", "anchors": ["src/Narsese.c: Narsese_PrintTermPrettyRecursive, Narsese_PrintTerm"]}
{"id": "C36", "title": "Parser never writes outside the term", "statement": "Parsing any input string either produces a term or terminates with an error message; it never writes outside the term array.", "quantifier": "every input string", "why_tests_cant": "deeply nested strings", "anchors": ["src/Narsese.c: buildBinaryTree"]}
{"id": "C37", "title": "Concept memory is a map from terms to concepts", "statement": "At any time every stored concept is found under its term, no two concepts have the same term, and lookup of a term without concept returns none; creating a concept for a term never fails and afterwards lookup finds it.", "quantifier": "every history of concept creation, including when memory is full", "why_tests_cant": "needs >16384 concepts and arbitrary hash collisions", "anchors": ["src/Memory.c: Memory_Conceptualize, Memory_FindConceptByTerm, Memory_INIT"]}
{"id": "C38", "title": "Forgetting removes only the least useful concept", "statement": "When the memory is full, creating a concept forgets exactly one concept, of minimal priority in the queue; all other concepts keep their content.", "quantifier": "every full memory state", "why_tests_cant": "state space of full memories", "anchors": ["src/Memory.c: Memory_Conceptualize", "src/PriorityQueue.c"]}
{"id": "C39", "title": "Links to forgotten concepts are recognised", "statement": "A link is reported valid iff the concept it was created from is still in memory (has not been recycled since).", "quantifier": "every history of concept creation, link creation and forgetting", "why_tests_cant": "needs long histories with recycling", "anchors": ["src/Memory.c: Memory_ImplicationValid, Memory_Conceptualize"]}
{"id": "C40", "title": "Links are stored in the concept of their consequence", "statement": "After a (temporal) implication is added, the link is found in the concept of its consequent.", "quantifier": "every memory state, including a full one", "why_tests_cant": "full memory with specific usage values", "anchors": ["src/Memory.c: Memory_ProcessNewBeliefEvent"]}
{"id": "C41", "title": "Weak and zero-priority events are not admitted", "statement": "An event with confidence below MIN_CONFIDENCE or non-positive priority changes nothing; every event in the attention buffers satisfied these bounds.", "quantifier": "every event and state", "why_tests_cant": "continuous domain", "anchors": ["src/Memory.c: Memory_AddEvent"]}
{"id": "C42", "title": "No duplicate events in attention buffers", "statement": "An event identical (term, truth, time, evidence) to one already in the belief buffer or a goal buffer is not added again.", "quantifier": "every buffer state", "why_tests_cant": "histories", "anchors": ["src/Memory.c: Memory_addCyclingEvent, Memory_containsEvent, Memory_containsBeliefOrGoal"]}
{"id": "C43", "title": "Attention buffers are bounded and typed", "statement": "The belief buffer holds at most 40 belief events, each goal buffer layer at most 400 goal events; goals go one layer deeper than the goal they stem from, at most layer 29.", "quantifier": "every history", "why_tests_cant": "histories", "anchors": ["src/Memory.c: Memory_addCyclingEvent, Memory_AddEvent"]}
{"id": "C44", "title": "Belief confidence of a concept never decreases", "statement": "Processing a new belief event never lowers the confidence of the concept's eternal belief as long as all confidences are at most MAX_CONFIDENCE.", "quantifier": "every state and event", "why_tests_cant": "histories", "anchors": ["src/Memory.c: Memory_ProcessNewBeliefEvent", "src/Inference.c"]}
{"id": "C45", "title": "Usefulness ordering", "statement": "Usefulness is in [0,1), grows with use count, and falls with time since last use.", "quantifier": "all usages and times", "why_tests_cant": "continuous domain", "anchors": ["src/Usage.c: Usage_usefulness, Usage_use"]}
{"id": "C46", "title": "Time advances by one per cycle", "statement": "Each requested inference cycle advances the clock by exactly one when no operation is executed; the clock never goes back except on reset.", "quantifier": "every sequence of inputs and cycles", "why_tests_cant": "histories", "anchors": ["src/NAR.c: NAR_Cycles, NAR_AddInputBelief"]}
{"id": "C47", "title": "Operation registry", "statement": "Registering an operator name makes exactly that operation callable under a stable id; re-registering the same operator keeps its slot; at most OPERATIONS_MAX operations are held and one more is refused with an assertion.", "quantifier": "every registration sequence", "why_tests_cant": "sequences", "anchors": ["src/NAR.c: NAR_AddOperation", "src/Memory.c: Memory_getOperationID"]}
{"id": "C48", "title": "No action below the decision threshold", "statement": "An operation is executed only if a decision whose desire reaches the decision threshold was announced right before, or motor babbling is on and the operation is one of the first BABBLING_OPS; it is executed without arguments or as the system's own, ({SELF} * ...). Outside of motor babbling it is that of the best decision announced for the selected goals, which in turn is a best one among the candidates considered for a goal at a concept: a candidate proposes the operation named by a link, desired as much as goal, link and observed precondition imply, unless all that the present goals say about the operation, taken together by revision and choice, speaks against it (expectation below 1/2).", "quantifier": "every call in every reachable state, every memory state and goal", "why_tests_cant": "all knowledge states", "anchors": ["src/Decision.c: Decision_BestCandidate, Decision_Suggest, Decision_Execute"]}
{"id": "C49", "title": "Questions are answered with the best matching belief", "statement": "The answer to a question unifies with it and no other matching stored belief has a higher expectation (eternal questions) / projected expectation (event questions).", "quantifier": "every memory state and question", "why_tests_cant": "all knowledge states", "anchors": ["src/NAR.c: NAR_AddInput"]}
{"id": "C50", "title": "Derivation filters are enforced", "statement": "No conclusion of the inference rules or of the induction of links enters memory that violates the documented filters (e.g. atom appearing twice in a statement, nested higher-order statements, variables of wrong kind in inheritance); a conclusion rejected by the filters has no effect, an accepted one is added with the truth value, evidence and time of the derivation.", "quantifier": "every statement, every derivation in every state", "why_tests_cant": "rule/premise combinations", "anchors": ["src/NAL.c: NAL_DerivedEvent2 and filters"]}
{"id": "C51", "title": "Evidence is not counted twice in derivations", "statement": "A two-premise derivation happens only when the stamps of the premises do not overlap, and the conclusion carries the merged stamp of both; if they overlap, nothing happens.", "quantifier": "every pair of premises selected in any cycle", "why_tests_cant": "histories", "anchors": ["src/Cycle.c: Cycle_Inference, Cycle_ProcessBeliefEvents"]}
{"id": "C52", "title": "Link timing stays between observed timings", "statement": "The time offset of a revised temporal link is a confidence-weighted mean of the merged offsets: between them, and nearer to the more confident one.", "quantifier": "all links", "why_tests_cant": "continuous domain", "anchors": ["src/Inference.c: Inference_ImplicationRevision, weighted_average"]}
{"id": "C53", "title": "Sequence and implication induction respects time order", "statement": "Induced temporal implications and sequences combine an earlier with a later-or-equal event, carry the later time, the exact offset, and evidence of both.", "quantifier": "all pairs of events", "why_tests_cant": "all pairs", "anchors": ["src/Inference.c: Inference_BeliefIntersection, Inference_BeliefInduction"]}
{"id": "C54", "title": "Reset returns to the initial state", "statement": "After reset the system answers and behaves exactly as a freshly started one.", "quantifier": "every prior history", "why_tests_cant": "hidden global state", "anchors": ["src/NAR.c: NAR_INIT", "src/Memory.c: Memory_INIT", "src/Event.c: Event_INIT", "src/Narsese.c: Narsese_INIT"]}
{"id": "C55", "title": "UDP front end serialises access to the reasoner", "statement": "With the receiver thread and the reasoner thread running concurrently, every input and every cycle is executed atomically with respect to each other, in some sequential order consistent with each thread's order, and after stop no thread touches the reasoner.", "quantifier": "every thread interleaving", "why_tests_cant": "schedules", "anchors": ["src/NetworkNAR/UDPNAR.c"]}
{"id": "C56", "title": "Truth values in memory always valid", "statement": "In every reachable state every stored belief, goal and link has frequency and confidence in [0,1].", "quantifier": "every sequence of API calls with valid input truth values", "why_tests_cant": "unbounded histories", "anchors": ["src/NAR.c", "src/Memory.c", "src/Cycle.c", "src/Decision.c", "src/NAL.c"]}
{"id": "C57", "title": "Random source range", "statement": "The pseudo random source always returns a value between 0 and 32767 and the sequence is determined by the seed.", "quantifier": "every seed and number of calls", "why_tests_cant": "2^64 states", "anchors": ["src/Globals.c: myrand, mysrand"]}
{"id": "C58", "title": "Prediction and subgoaling by implications", "statement": "From an event and an implication the reasoner predicts exactly the consequent, at the time of the event plus the time distance of the implication; from a goal and an implication it derives exactly the precondition without the operations it ends with, for the current time. Both carry the merged evidence and at most the confidence of each premise; moving an event to another time never raises its confidence.", "quantifier": "every event, every implication, every current time, every rounding of the arithmetic", "why_tests_cant": "unbounded domains of terms, truth values and times", "anchors": ["src/Inference.c: Inference_GoalDeduction, Inference_GoalSequenceDeduction, Inference_BeliefDeduction, Inference_EventUpdate"]}
{"id": "C59", "title": "Operations of a sequence", "statement": "The operation part of a precondition (a &/ ^op1 &/ ... ) is the left-nested sequence of exactly its operations in order, or nothing if the sequence does not end with an operation; the length of a sequence is the number of its events, however it is nested.", "quantifier": "every term", "why_tests_cant": "all nestings of all terms", "anchors": ["src/Narsese.c: Narsese_getOperationTerm, Narsese_OperationSequenceAppendLeftNested, Narsese_GetPreconditionWithoutOp, Narsese_SequenceLength"]}
{"id": "C60", "title": "Numeric similarity never strengthens a match", "statement": "Unification that tolerates different numbers of the same measurement returns a truth value whose frequency and confidence stay in [0,1] and whose confidence is at most the given one; atoms are only treated as similar if both carry values of the same measurement, and for zero input confidence only equal atoms match.", "quantifier": "every pair of terms, every truth value and every positive similarity distance", "why_tests_cant": "all terms, numbers and distances", "anchors": ["src/Variable.c: Variable_Unify2, Variable_UnifyWithAnalogy"]}
{"id": "C61", "title": "Variable introduction generalises", "statement": "Introducing variables into an implication, equivalence or conjunction consistently replaces simple atoms by fresh variables, different atoms by different ones, and leaves everything else unchanged, so the original statement is an instance of the result; independent variables replace only atoms that occur on both sides.", "quantifier": "every implication, equivalence and conjunction whose variables are numbered without gaps", "why_tests_cant": "all terms", "anchors": ["src/Variable.c: Variable_IntroduceImplicationVariables, Variable_IntroduceConjunctionVariables, countStatementAtoms, newVarID"]}
{"id": "C62", "title": "Sentences are read as written", "statement": "A sentence made of a term, a punctuation mark, an optional tense and an optional truth value in decimal notation is read with exactly this term, mark, tense and truth value; defaults are eternal, frequency 1 and confidence 0.9.", "quantifier": "every well-formed term text, mark, tense and pair of decimal numbers within the length limit", "why_tests_cant": "all terms and all numerals", "anchors": ["src/Narsese.c: Narsese_Sentence"]}
{"id": "C63", "title": "Priorities stay in the unit interval", "statement": "In every reachable state every concept and every event in an attention buffer has a priority of at most one (so a new input with priority one always competes).", "quantifier": "every sequence of legal API calls and shell commands", "why_tests_cant": "priorities are rescaled in every cycle; must hold for all histories", "anchors": ["src/Memory.c: Memory_AddEvent, Memory_Conceptualize", "src/Cycle.c: Cycle_RelativeForgetting"]}
{"id": "C64", "title": "Stored terms consist of registered names", "statement": "In every reachable state every atom of every stored term (concepts, beliefs, goals, links, operations) is the number of a registered name, and looking up the name gives this number back, so everything stored can be printed.", "quantifier": "every sequence of legal API calls and shell commands, every stored term, every position", "why_tests_cant": "all derivations, all histories", "anchors": ["src/Narsese.c: Narsese_AtomicTermIndex", "src/NAL.c: NAL_DerivedEvent", "src/Memory.c: Memory_AddEvent"]}
{"id": "C65", "title": "The compiled rule table is the documented one", "statement": "Every inference rule and every term reduction which the reasoner applies is the parse of a rule written in the rule source, in the same order, with the truth function named there.", "quantifier": "every rule and reduction of the rule source", "why_tests_cant": "the table is generated code; a test would have to exercise every rule with premises matching it alone", "anchors": ["src/NAL.h", "src/NAL.c: NAL_GenerateRuleTable", "src/RuleTable.h"]}
{"id": "C66", "title": "A query prints exactly the matching answers above the threshold", "statement": "The query command prints, for each stored belief, event or link which matches the question, one line if and only if its (projected) expectation exceeds the given threshold.", "quantifier": "every reachable memory state, question and threshold", "why_tests_cant": "all memory contents", "anchors": ["src/NAR.c: NAR_AddInputNarsese2", "src/Shell.c: Shell_ProcessInput"]}
{"id": "C67", "title": "Parameters change by their own commands only", "statement": "Every parameter (decision threshold, anticipation confidence, motor babbling, number of babbling operations, question priming, similarity distance, restricted concept creation) has the value given by the last command which sets it; no other call, input, inference or reset changes it, but that a reset switches restricted concept creation off.", "quantifier": "every reachable state and every call of the interface or shell", "why_tests_cant": "all histories", "anchors": ["src/Shell.c: Shell_ProcessInput", "src/NAR.c: NAR_INIT", "src/Decision.c", "src/NAL.c"]}
{"id": "C68", "title": "Starting and stopping the UDP front end", "statement": "Starting the front end never deadlocks and loses no wakeup; it returns only after both threads have begun; stopping it always returns, whatever packets arrive; the parameters handed to the threads are alive when they read them.", "quantifier": "every thread interleaving and every sequence of packets", "why_tests_cant": "schedules", "anchors": ["src/NetworkNAR/UDPNAR.c: UDPNAR_Start", "src/NetworkNAR/UDPNAR.c: UDPNAR_Stop", "src/NetworkNAR/UDPNAR.c: Reasoner_Thread_Run"]}
{"id": "C69", "title": "Sessions of the shell", "statement": "A session of the shell is a sequence of interface calls: a number runs that many cycles, a blank line one, a comment does nothing, quit ends the session with no effect of later lines, white space at the end of a line is irrelevant, every other line not beginning with an asterisk is given to the Narsese input; and the state after any lines is one reachable through the interface.", "quantifier": "every sequence of lines", "why_tests_cant": "all texts", "anchors": ["src/Shell.c: Shell_ProcessInput", "src/Shell.c: Shell_Start"]}
{"id": "C70", "title": "The belief of a concept is about its term", "statement": "The eternal belief stored in a concept is a belief about the term of that concept.", "quantifier": "every reachable state, every concept", "why_tests_cant": "concept cells are recycled while pointers into them are still in use; only particular histories expose it", "anchors": ["src/Memory.c: Memory_ProcessNewBeliefEvent, Memory_AddEvent (concept and event pointers across Memory_Conceptualize)"]}
{"id": "C71", "title": "Abnormal ends are known", "statement": "After NAR_INIT and any sequence of legal calls (terms of registered names, valid truth values), a further legal call either succeeds, or refuses its argument with one of the documented parse/registration errors of that call, or ends in one of a short list of abnormal ends (each tied to a particular assertion or undefined operation and its trigger). In particular none of the 36 internal failures can happen: no priority queue is pushed past its end or popped when empty, the hash table always finds the item it deletes, its node stack neither overflows nor underflows, no link lacks its source concept, link truth values stay in bounds, no term is written out of range, no non-belief enters belief processing.", "quantifier": "all reachable states, all legal API calls and shell lines, all argument values, all recursion bounds", "why_tests_cant": "Absence of a failing assertion or of an out-of-bounds access in every history cannot be sampled; the triggers involve eviction in the middle of a function and full memories.", "anchors": ["src/NAR.c NAR_AddInput, NAR_Cycles, NAR_AddOperation, NAR_AddInputNarsese", "src/Shell.c Shell_ProcessInput", "src/Memory.c Memory_AddEvent", "src/HashTable.c HashTable_Delete", "src/PriorityQueue.c", "src/Stack.c", "src/Decision.c", "src/Cycle.c Cycle_Perform"]}
{"id": "C72", "title": "What is told is remembered", "statement": "After a belief (not an implication) is told through NAR_AddInput or as text with a confidence of at least MIN_CONFIDENCE, and the call succeeds with the memory not full, there is a concept of exactly the told term holding an eternal belief that is at least as confident as what was told (for an event: as its eternalised truth value; at most MAX_CONFIDENCE). The belief stays, with at least this confidence, during all further calls until the memory is cleared, while the memory has room. Asking for it then does not print None: a matching belief whose expectation is not below that of the told term's belief is printed.", "quantifier": "all reachable states, all terms, truth values, tenses and texts, all further calls, all recursion bounds", "why_tests_cant": "derivations, revisions and forgetting run between telling and asking, in every possible history", "anchors": ["src/Memory.c: Memory_AddEvent, Memory_ProcessNewBeliefEvent, Memory_Conceptualize", "src/Inference.c: Inference_RevisionAndChoice", "src/NAR.c: NAR_AddInput, NAR_AddInputNarsese2"]}
{"id": "C73", "title": "No goal, no action", "statement": "As long as the goal buffers are empty and no goal is told, no call announces a decision or executes an operation, not even by motor babbling: all that is printed are answers to questions; and no goal appears by itself. In particular, after NAR_INIT a system that is never told a goal never acts.", "quantifier": "all reachable states without goals, all calls that do not tell a goal (beliefs, questions, cycles, commands, resets), all histories of such calls, all settings (also babbling chance 1), all recursion bounds", "why_tests_cant": "actions arise from goals, subgoals, sequence decomposition and random babbling deep in the cycle; absence in every history cannot be tested", "anchors": ["src/Cycle.c: Cycle_Perform, Cycle_ProcessAndInferGoalEvents, Cycle_PopEvents", "src/Decision.c: Decision_Suggest, Decision_MotorBabbling, Decision_Execute", "src/Memory.c: Memory_AddEvent", "src/NAR.c: NAR_AddInput, NAR_AddInputNarsese2"]}
{"id": "C74", "title": "Every conclusion follows by a published rule", "statement": "Whatever the inference step of a cycle adds to memory is justified: its statement is an instance of the conclusion of a rule in the rule file whose premises are matched by a selected event, or by a selected event and a belief, with the same terms for the same variables (or it follows by detachment, abduction, analogy or a partially fulfilled condition from an implication, equivalence or conjunction), possibly simplified by a reduction of the rule file or generalised by introducing variables; its truth value is the one the rule's truth function gives for the truth values of the premises, in the order of the rule. Conversely, a rule whose premises are instances applies, its conclusion being the corresponding instance, and every conclusion of an applicable rule is passed on to be derived.", "quantifier": "all 243 rules and 22 reductions, all terms and assignments, all memory states and selected events, all truth values", "why_tests_cant": "rules are compiled to code over tree positions; a wrong position, a variable bound twice or a lost argument only shows for particular shapes of terms", "anchors": ["src/NAL.c: NAL_GeneratePremisesUnifier, NAL_GenerateConclusionSubstitution, NAL_GenerateRule, NAL_DerivedEvent", "src/NAL.h: rules", "src/Cycle.c: Cycle_Inference, Cycle_SpecialInferences"]}
{"id": "C75", "title": "Subgoals are justified, and no applicable link is missed", "statement": "In a layer of goals, a cycle takes out the goal of the highest priority. The goals which are then added are exactly justified by it: either the goal is a sequence and the new goal is for its first component not fulfilled by present beliefs, in order of time (with the truth value of goal deduction through the fulfilled ones, or of structural deduction if none is fulfilled), or it is the condition (without its operation) of a link whose source is still in memory, in a concept matched by the goal, whose consequence matches the goal pursued by that concept, with the truth value of goal deduction; the priority is the one of the goal times the expectation of the subgoal. When a concept matched by the goal is visited, every valid link is used, table by table, and all invalid links are removed. If an operation is chosen instead, all waiting goals are dropped before it is executed. Nothing else changes the waiting goals.", "quantifier": "all states meeting the memory invariants, all goals, priorities, layers, times, knowledge bases and link tables", "why_tests_cant": "Goal derivation depends on all concepts, links, spikes and buffers together; a test sees only some of the subgoals of one state, and neither the absence of unjustified goals nor the use of every link.", "anchors": ["src/Cycle.c: Cycle_GoalSequenceDecomposition, Cycle_ProcessAndInferGoalEvents, Cycle_PopEvents", "src/Inference.c: Inference_GoalDeduction, Inference_GoalSequenceDeduction", "src/Memory.c: Memory_AddEvent, Memory_ImplicationValid"]}
{"id": "C76", "title": "Every related concept is considered, exactly once", "statement": "When an event is processed, when a goal is pursued, and when an event for a component of a sequence goal is looked for, the search over the memory goes through every concept in memory which is the concept of the term or shares an atom with it, each of them exactly once, starting with the concept of the term, no matter what happened before and how often the same concept is found on the way. Hence a belief event without variables is noticed by exactly the related concepts which match it, and by no other, and a goal without variables is taken over by exactly these; if the event or goal has variables (other than query variables), these are the related concepts about an instance of it, and each receives its own instance; for each goal every related concept gets the chance to derive subgoals; a component of a sequence goal becomes a goal only if no event in memory serves as this component, and otherwise the event which is expected most to hold is used.", "quantifier": "every state reachable by API calls, every event and goal, every content of memory", "why_tests_cant": "The traversal uses marks left in the concepts by all earlier traversals, a counter, and chains of the inverted index shared between atoms; a stale mark or a missed chain shows up only as an event silently not noticed in some history", "anchors": ["src/Cycle.c RELATED_CONCEPTS_FOREACH", "src/Cycle.c Cycle_ProcessSensorimotorEvent", "src/Cycle.c Cycle_GoalSequenceDecomposition", "src/Cycle.c Cycle_ProcessAndInferGoalEvents", "src/InvertedAtomIndex.c InvertedAtomIndex_GetConceptChain"]}
{"id": "C77", "title": "Every call comes to an end", "statement": "After NAR_INIT and any sequence of legal calls, a further call or shell line comes to an end: the loops over the related concepts (which follow the chains of the inverted atom index while the bodies may derive new knowledge, create concepts and forget others, and so relink the very chains being followed) visit at most (BELIEF_CONCEPT_MATCH_TARGET+1)*(31*CONCEPTS_MAX+1) elements, the loops over tables and the history visit each index once, and the feedback of an operation, which starts a further cycle from within the cycle, never makes another operation execute. The bounds which the formal model puts on these loops make no difference to any outcome. What remains is the recursion of adding a revised belief, which ends the program by using up the stack if it does not end (one of the abnormal ends of C71).", "quantifier": "every state reachable by API calls, every legal call or line, every size of the memory", "why_tests_cant": "A traversal of a linked structure which is modified during the traversal may run in a circle for some history of creations and evictions; no finite number of runs shows that none does.", "anchors": ["src/InvertedAtomIndex.h: RELATED_CONCEPTS_FOREACH", "src/InvertedAtomIndex.c", "src/Cycle.c: Cycle_Inference, Cycle_ProcessSensorimotorEvent, Cycle_GoalSequenceDecomposition", "src/NAR.c: NAR_Cycles, NAR_AddInputBelief", "src/Decision.c: Decision_Execute"]}
{"id": "C78", "title": "Experience is turned into links", "statement": "After NAR_INIT and any sequence of legal calls: when an event a, then the execution of an operation op, and then, all within the temporal window (20 time steps), an event b are observed (all three remembered among the recent events, not based on the same evidence, neither eternal nor with variables, a not a higher-order statement, b not a sequence, property value or operation), and induction gives the implication <(a &/ op) =/> b> with a confidence of at least MIN_CONFIDENCE and an admissible term, then NAR_AddInput of b (or NAR_Cycles with b being the belief event of highest priority) leaves the link stored at the concept of b, in the table of op, unless the table is full of better links or the memory is full. In particular a new event is always processed before every event buffered earlier, since the priority of those is below 1.", "quantifier": "all sequences of legal calls before, all terms, truth values, offsets, contents of memory, of the buffer and of the history of recent events, all numbers of cycles", "why_tests_cant": "the chain from input to selection, matching with related concepts, search for preconditions and operations in the history, induction, filters, and concept creation and eviction must work out for every content of memory; examples exercise a handful of terms", "anchors": ["src/NAR.c: NAR_AddInput", "src/Cycle.c: Cycle_Perform, popEvents, Cycle_ProcessSensorimotorEvent, Cycle_ProcessBeliefEvents, Cycle_ReinforceLink", "src/Memory.c: Memory_AddInputEvent, Memory_ProcessNewBeliefEvent", "src/OccurrenceTimeIndex.c", "src/Inference.c: Inference_BeliefInduction, Inference_BeliefIntersection"]}
{"id": "C79", "title": "Anticipation", "statement": "When an event is observed or an operation executed (Decision_Anticipate), every link of the visited concepts for that operation whose condition is still in memory is used, and all others are removed: if the condition of the link has been observed, the operation of the link (with the values of the observed condition) matches the executed one, and the event which follows by deduction is expected with more than the anticipation threshold (or known not to happen), then the link receives negative evidence of the anticipation confidence, as if the prediction had failed, and the prediction is noted in its concept, by revision or choice, provided that link and observation are based on different evidence; a prediction by a temporal link does not count as observation. Nothing else is changed. In particular anticipation adds no link, makes no link more likely, and changes neither beliefs nor goals.", "quantifier": "all states satisfying the invariant of reachable states, all operations and operation terms, all links and truth values, all times; the second part for memories which are not full afterwards and exact arithmetic", "why_tests_cant": "the links are visited while concepts are created and links rewritten; that no link is ever strengthened or lost must hold for every content of the memory", "anchors": ["src/Decision.c: Decision_Anticipate, Decision_AddNegativeConfirmation", "src/Memory.c: Memory_ImplicationValid, Memory_Conceptualize", "src/Table.c: Table_AddAndRevise, Table_Remove", "src/Inference.c: Inference_BeliefDeduction, Inference_RevisionAndChoice"]}
{"id": "C80", "title": "Forgetting", "statement": "Forgetting, the last step of every cycle, multiplies the urgency of every buffered belief and goal event by 0.9999 and the attention of every concept by 0.9, ranks every concept by its usefulness (uses per time since the last use, v, as v/(v+1)) at the time the cycle began, and changes nothing else: no event, concept, belief or link is lost. So after every statement told and every cycle the concepts are ranked by their present usefulness; a question may only make the concepts it used more useful than their rank, until the next cycle. When the memory is full and a new concept is needed, a concept of lowest rank makes room and no other concept is touched.", "quantifier": "all states satisfying the invariant of reachable states, all times, all sequences of API calls and shell commands, all memory sizes, all admissible roundings", "why_tests_cant": "which concept is given up depends on the whole history of uses; the ranking must be right after every sequence of calls", "anchors": ["src/Cycle.c: Cycle_RelativeForgetting, Cycle_Perform", "src/Usage.c: Usage_usefulness", "src/Memory.c: Memory_Conceptualize", "src/NAR.c: NAR_AddInputNarsese2, NAR_Cycles"]}
{"id": "C81", "title": "Comparing measurements", "statement": "When a sequence is built whose last two elements measure the same attribute, <(x * v1) --> attr> and then <(y * v2) --> attr> (with --> or |->) and v1, v2 have declared values, the comparison of the values is concluded, and only then: <(x * y) --> (= attr)> for equal values, <(x * y) --> (+ attr)> if the first value is larger, <(y * x) --> (+ attr)> if it is smaller, after the earlier elements of the sequence, if there are any. The conclusion always fits into a term.", "quantifier": "all sequences of any shape and depth, all vocabularies, all values, all atomic attributes", "why_tests_cant": "the check works on fixed positions of the array encoding of terms, which mean something else for other shapes and depths; direction and context must be right for every term", "anchors": ["src/Cycle.c: Cycle_ProcessBeliefEvents (494-588)", "src/Narsese.c: Narsese_hasAtomValue, Narsese_getAtomValue", "src/Term.c: Term_ExtractSubterm, Term_OverrideSubterm"]}
{"id": "C82", "title": "Functional equivalence", "statement": "When a decision taken because of a link <(c &/ op) =/> g> without variables is executed, the link is compared with every link for the same operation at the concept of g, one after the other. If the other link has no variables, the same consequence and the same operation, another condition, and independent evidence, and the conditions, after leaving out the common elements at both ends, are different parts p and q of equal length, then <p ==> q> (with the truth of induction), <q ==> p> (with the truth of abduction) and their generalisations with variables are added as beliefs of the present, with the combined evidence, each at most once, provided that they fit into a term and neither p is known to precede q nor q to precede p. Nothing else is concluded at that point, and then the operation is executed.", "quantifier": "all states satisfying the invariant of reachable states, all links, tables and conditions of any shape, all truth values and times", "why_tests_cant": "the table is read while memory is changed by the conclusions, and the condition under which a conclusion may be drawn involves terms of arbitrary depth and all temporal links of the two conditions", "anchors": ["src/Decision.c: Decision_Execute (51-181)", "src/Memory.c: Memory_getTemporalLinkTruth, Memory_AddEvent", "src/Variable.c: Variable_IntroduceImplicationVariables2", "src/Narsese.c: Narsese_GetPreconditionWithoutOp, Narsese_SequenceLength"]}
{"id": "C83", "title": "Asking has no effect but attention", "statement": "A question changes nothing in memory, buffers, clock, settings or random numbers except for the concept which answers it: if question priming is on, its priority is raised to the priming value if it was lower, and it counts as used at the current time, once more for a question with tense, and a million times more for one without. That concept is in memory, its term matches the question, and it holds what is answered: its eternal belief for a question without tense, its last event for present and past, its predicted event for present and future. If the question is not an implication, the single line printed is the answer of exactly that concept, and 'None' is printed exactly if no concept gets attention.", "quantifier": "all histories of calls, all question texts, tenses, query modes and thresholds", "why_tests_cant": "the search runs over all concepts of an arbitrary memory, and everything else in the state has to be unchanged", "anchors": ["src/NAR.c: NAR_AddInputNarsese2 (123-283), NAR_PrintAnswer", "src/Usage.c: Usage_use"]}
{"id": "C84", "title": "Execution and its feedback", "statement": "When a decision with an operation is executed, then, exactly if the statement <arguments --> op> (or op, without arguments) fits into a term, one line announcing it is printed and the function registered for that operation is called with exactly the arguments of the decision. If the function reports failure, or an operation which reports on the standard input gives no matching result, nothing else happens. Otherwise the system is told, by the same call as a user's, this statement with the values of the result in place of its variables, as a present belief with the default truth; and then, if the decision rests on a link with variables whose specific case has not been experienced, the evidence of a failure of the specific link is added in the concept of its consequence, and nothing else.", "quantifier": "all states satisfying the invariant of reachable states, all decisions, operations, registered functions and input lines, any nesting of executions", "why_tests_cant": "the feedback runs a whole inference cycle, which can execute further operations, and the registered functions are arbitrary", "anchors": ["src/Decision.c: Decision_Execute (51-269), Decision_AddNegativeConfirmation", "src/NAR.c: NAR_AddInputBelief"]}
{"id": "C85", "title": "The reports of the shell tell the state", "statement": "The commands *stats, *concepts, *cycling_belief_events, *cycling_goal_events, *opconfig and *inverted_atom_index change nothing and cannot fail (except *stats at time 0). The counts of *stats are those of the memory and the buffers, its chain lengths the largest number of concepts or atoms sharing a bucket, its averages for concepts and belief events between 0 and 1; *concepts lists every concept in memory exactly once with its priority, usefulness, usage, belief and links; the event listings are the buffers' contents; *inverted_atom_index lists an atom with a term exactly if a concept with this term exists and the atom is a simple one among its first 31 places; *opconfig lists the named operations and their babbling arguments.", "quantifier": "all sequences of API calls before the report, all sizes", "why_tests_cant": "the reports follow chains and loops through the data structures: that they end, meet no NULL and show everything depends on every history before", "anchors": ["src/Stats.c: Stats_Print", "src/Shell.c: Shell_ProcessInput (115-232)", "src/InvertedAtomIndex.c: InvertedAtomIndex_Print", "src/HashTable.c: HashTable_MaximumChainLength"]}
{"id": "C86", "title": "What is announced is what was added", "statement": "Printing never influences what is done: the memory changes as if nothing was printed. A told event, goal or eternal statement which is not an implication is announced as Input exactly once with its content; what is too uncertain to be accepted is not announced and has no effect. A derived event, belief or subgoal is announced as Derived, with its content and the priority it is attended with, exactly if it was put into the attention buffer and its priority exceeds the volume threshold. A line Revised tells the belief, or the link, which is in memory afterwards. A temporal link is announced only if it was stored. With *volume=0 nothing is announced which was not told; with *volume=100 everything is. A line Selected tells the event which was selected. Every told sentence is announced exactly once.", "quantifier": "all states reachable by API calls, all events, priorities, print flags and thresholds", "why_tests_cant": "Which lines appear depends on the whole memory content (what revises, what is already in the buffers, what was evicted), so a test can only compare transcripts of some runs.", "anchors": ["src/Memory.c Memory_printAddedKnowledge, Memory_printAddedEvent, Memory_printAddedImplication, Memory_ProcessNewBeliefEvent, Memory_AddEvent, Memory_AddInputEvent", "src/Cycle.c Cycle_PopEvents", "src/Shell.c *volume"]}
{"id": "C87", "title": "What has happened and what is expected are kept apart", "statement": "When a told or derived event or belief (not an implication) is accepted, exactly one concept takes note of it, the one of its statement, which is created if it is not there. An event with an occurrence time up to now is combined, by revision or choice, with what this concept last knew to have happened, and leaves its prediction alone; an event of the future is combined with the prediction and leaves alone what has happened; a belief without time changes neither. Every other concept keeps what it knows to have happened and what it expects. The concept becomes the newest of the recently observed ones exactly if the event has a time and is not the value of a property. If nothing known to have happened lies in the future, then this stays so. What is told with enough confidence is always noted.", "quantifier": "all states reachable by API calls, all events, occurrence times and priorities, as long as the concept memory is not full", "why_tests_cant": "The record depends on everything noted before at the concept and on the recursive addition of revised beliefs; tests see only single observations.", "anchors": ["src/Memory.c Memory_ProcessNewBeliefEvent, Memory_AddEvent, Memory_AddInputEvent", "src/Inference.c Inference_RevisionAndChoice"]}
{"id": "C88", "title": "What gets attention is what is new", "statement": "An event is ignored exactly if it is already waiting for attention (same statement, truth, time and evidence), if the concept of its statement already remembers it (an eternal belief or a goal just like it, or for an event one of the same time and evidence with at least its confidence), or if it is an eternal belief and the statement is already believed with more confidence. Ignoring changes nothing. Every other belief is offered to the buffer of beliefs and every other goal to the buffer of the next layer of goals, and nothing else changes: with room it is added and everything waiting stays; without room it takes the place of one waiting event of lowest priority if that priority is not higher than its own, and is refused otherwise. The offer never fails.", "quantifier": "all states reachable by API calls, all belief and goal events, priorities and layers, and all buffer sizes", "why_tests_cant": "Whether an event gets in depends on everything waiting and known in the memory; tests see a few fillings of the buffers only.", "anchors": ["src/Memory.c Memory_addCyclingEvent, Memory_containsEvent, Memory_containsBeliefOrGoal", "src/Event.c Event_Equal, Event_EqualTermEqualStampLessConfidentThan", "src/PriorityQueue.c PriorityQueue_Push"]}
{"id": "C89", "title": "Attention goes to the most urgent, and nobody waiting is lost without reason", "statement": "Each cycle selects one of the waiting beliefs and events of highest priority, and for each layer one of the waiting goals of highest priority, if there is any; the others go on waiting. NAR_INIT and *reset leave nobody waiting. During every other call those waiting for attention change only in these ways: an event that is not yet among them, with priority in (0,1] and at least the minimal confidence, comes, and takes a free place, or the place of one of the least urgent if that is not more urgent, or is refused; one of the most urgent is taken; all fade by the same factor; and goals may be dropped all at once. So an event which waited before the call still waits afterwards, or at some point it was one of the most urgent, or it was one of the least urgent of a full buffer and an event of no lower priority came, or it was a goal when all goals were dropped.", "quantifier": "all states reachable by API calls, all legal calls of any length, all buffer sizes", "why_tests_cant": "It is a statement about every intermediate moment of every call: no path through the reasoning cycle may lose or reorder a waiting event; tests see the buffers only before and after some calls.", "anchors": ["src/Cycle.c Cycle_PopEvents, Cycle_Perform, Cycle_RelativeForgetting, Cycle_ProcessAndInferGoalEvents", "src/Memory.c Memory_addCyclingEvent, Memory_INIT", "src/PriorityQueue.c PriorityQueue_Push, PriorityQueue_PopMax"]}
