# DESIGN — a Lean 4 model of OpenNARS-for-Applications (ONA)

## Trusted base
* Lean 4.33.0's kernel. Theorems use at most the axioms `propext`, `Classical.choice`, `Quot.sound`
  (see "Axioms" below). No axioms of our own, no `native_decide`, no `bv_decide`.
* The reading of the C code: every definition in `lean/Verif/Model/*.lean` cites the file and lines it
  models and states its simplifications. The C code is not compiled or run.
* The C semantics we assume: LP64 (`long`, pointers: 64 bit, `int`: 32 bit), two's complement, arithmetic
  right shift and wrapping arithmetic for `long` in `Globals_Hash` (gcc behaviour; formally UB/impl.-defined),
  little-endian packing of 16-bit atoms into 64-bit words, `int`/`long` counters do not overflow elsewhere
  (modelled as unbounded `Nat`/`Int`), padding bytes of `Term` are equal (`memcmp` in `Term_Equal`).
* Floating point: doubles are modelled as rationals with a rounding function `rnd` (class `Arith`):
  each C operation `a op b` is `rnd (a op b)`. Theorems about ranges hold for every `rnd` satisfying the
  class laws (monotone, idempotent, odd, exact on naturals up to 2^53 and on 1/2, bounded relative error away from
  underflow, gradual underflow `a ≠ b → rnd (a-b) ≠ 0`, Sterbenz for `1-c`; `pow`/`log2` only by their
  monotonicity and border values); the class is inhabited by IEEE binary64 with
  round-to-nearest-even and no overflow (`binary64`, Proofs/Binary64, with `pow` and `log2` correctly rounded: glibc's may differ in
  the last place, only the laws above matter) and by exact arithmetic (`exactArith`); theorems about exact identities
  (commutativity, additivity of evidence) are stated for `rnd = id` and say so. NaN/Inf are not values of the
  model: dividing by zero is an explicit error outcome (`Err.nan`).

## Model conventions
* Effects: `M σ α := σ → Except Err (α × σ)`; `Err` distinguishes `assertFail` (C `assert` → exit),
  `ub` (out-of-bounds access, NULL dereference), `nan` (division by zero), `fuel` (recursion bound of the model
  reached; theorems never use it as a normal outcome).
* Pointers are indices into storage arrays (`Nat`), arrays are functions `Nat → α` together with an explicit
  size where C has one, NULL is `none`.
* Data structures are generic in their size, as in the C API; `Config.lean` holds the constants.

## Layers
1. `Model/Globals, Stack, HashTable, PriorityQueue, Stamp, Truth, Usage, Term, Table, OccurrenceTimeIndex,
   InvertedAtomIndex, Event, Inference`
2. `Model/Narsese, Variable` (atom table, parser, printer, unification, variable introduction)
3. `Model/Memory, NAL, Decision, Cycle, NAR, Shell`, `Model/UDPNAR`
`Spec/*` holds small independent specifications (finite map, multiset queue, trees, evidence weights …),
`Proofs/*` helper lemmas, `Props/*` the property theorems with examples that meet their hypotheses.

## The whole system
* `Model/Memory, NAL, RuleTable, Decision, Cycle, NAR, Shell` are in one state record `Sys` (all the static variables of
  the program) and a state-and-error monad `M`; `Narsese` (atom table) is separate. `Spec/API.lean` defines the calls
  (`Call`), which arguments are legal, and `Reachable`.
* Simplifications: one thread (`Model/UDPNAR` apart); callbacks of operations return a feedback term and do not call back
  into the reasoner other than by it; the standard input read by shell operations is a list of already parsed terms;
  printing appends a structured `Output` to a log; `Fuel` bounds the length of sequences of goal chaining and the nesting of
  feedback in cycles. Running out of it is the error `fuel`; theorems about results quantify over all fuels, so they hold
  for whatever fuel makes a run succeed; C77 says which fuel suffices. The recursion of `Memory_AddEvent` is bounded by the field `stack` of the initial
  state, over which the theorems quantify as well.
* The sizes of the arrays are parameters (`Sizes`), `Sizes.program` are those of Config.h: theorems hold for all sizes, and
  examples are evaluated by the kernel with small ones.
* The invariant `Good` (Spec/System.lean) is preserved by each primitive change `Step` (Proofs/System, Closed*), all functions
  are sequences of such steps (Proofs/Buffers, ClosedNAL, ClosedDecision, ClosedCycle, API).
* Validation outside of the proofs: an executable version of the model (same definitions, binary64 arithmetic) was run on the
  files of examples/nal in a scratch directory; it printed the expected answers stated in these files.

## Per property plan
| id | what is modelled | how it is proved |
|----|------------------|------------------|
| C01 | `Globals_Hash` on `BitVec 64`, C remainder `Int.tmod` | sign bit of `h ^ (h >>s 16)` is 0; the remainder of a non-negative number |
| C02 | pointer-level `HashTable` (nodes with `next`, bucket heads, free stack) with coherent hash/equal | list-segment invariant; refinement to a finite map; induction over operations |
| C03 | same | free stack and chains partition the node pool (invariant) |
| C04 | same | false: negation with witnesses (NULL dereference; another key's entry removed); partial for chains ≥ 2 / present keys |
| C05 | `Stack` | refinement to `List` |
| C06, C07, C08, C09 | `PriorityQueue` incl. `bubbleUp`, `trickleDown` | min-max heap invariant; permutation of slots; refinement to a multiset |
| C10 | `PriorityQueue_PopAt` | false: concrete heap where it breaks the order; partial for positions on max levels |
| C11, C12 | `Table` | sortedness/distinctness invariant by induction over operations |
| C13 | `Table_AddAndRevise` | false: witness; the code revises regardless of overlap |
| C14 | `OccurrenceTimeIndex` | refinement to the list of additions |
| C15 | `InvertedAtomIndex` at pointer level | invariant: chains = exact sets; pool accounting by counting |
| C16–C18 | `Stamp` | loop characterised by list interleaving; set lemmas |
| C19 | `Event_InputEvent` | counter invariant over input sequences |
| C20–C24 | `Truth` over `Arith` | order arguments; field identities for the exact instance; error outcome for borders |
| C25, C26 | `Inference_RevisionAndChoice` | case analysis; C26 false above 0.99: witness |
| C27, C28 | `Term` with cached hash | coherence invariant; heap-index arithmetic |
| C29–C31 | `Variable` | tree semantics of the array encoding; induction over positions |
| C32, C33 | `Narsese_AtomicTermIndex` on the `HashTable` model | invariant; C33 false at the last atom: witness |
| C34–C36 | parser/printer | induction over syntax trees; C35/C36 false at the borders: witnesses |
| C37–C39 | `Memory` | global invariant linking storage, queue, hash table, inverted index |
| C40, C70 | whole system | while the memory has room no concept is evicted, so pointers into it stay valid: a stability relation carried through all functions; false in a full memory: witnesses |
| C71 | whole system | `Spec/Abort` lists the abnormal ends; every assertion, array access and NULL dereference of the model is followed through all functions with the invariant (`Proofs/Ends*`), those not listed cannot fail; witnesses for nine of the listed ones |
| C72 | whole system | `Spec/Told` says what it means that a belief is stored; `Told` (memory full, or stored) is preserved by every `Step`, established by `Memory_AddEvent` for inputs, combined with C49 for the answer. A full memory may evict the concept at once, and an implication is stored as a link (C40) |
| C73 | whole system | `Proofs/Calm`: everything the cycle does with beliefs leaves goal buffers and output untouched (frame proof, function by function); `Proofs/Idle`: on empty goal buffers the goal half of the cycle selects nothing and does nothing; lifted to every call and, by induction, to every history without goals |
| C74 | `NAL`, `RuleTable`, `Cycle` | Spec/Rules.lean says what an instance of a pattern is; loop invariants over the positions of premises and conclusions (Proofs/Rules.lean), for patterns without nodes below variables, which is checked for the whole table; the chain of insertions of C51 carries the justification of each insertion |
| C75 | `Cycle`, `Memory`, `Inference` | Spec/Subgoals.lean says when a goal is derived from another one by a link or from a sequence; adding a goal changes only the goal buffers (Proofs/Subgoals.lean); what decides about actions leaves the goals alone (Proofs/Aims.lean); loop invariants over the links of a table, the tables and the components of a sequence |
| C76 | `Cycle`, `InvertedAtomIndex`, `Memory` | Spec/Related.lean: related concepts, visits one after another, decomposition of a sequence; invariant of the whole system (`Good.marks`): no mark is ahead of the counter; invariant of the traversal (Proofs/Related.lean): exactly the visited concepts carry the mark, the rest of the map of the memory does not change (Proofs/Maps.lean); looking for an operation changes the links of operations only (Proofs/Adopts.lean); for events with variables Spec/Received.lean says what a concept receives |
| C77 | whole system | the error `fuel` of the model is followed through all functions (`Proofs/Ends*`): every loop with a bound has a measure; for the traversals of the index (Proofs/Chains.lean) the rest of the chain, at most the whole pool, and the number of matched concepts, which goes up whenever the index may be changed; the feedback of an operation is processed without goals (`Quiet`), so that no decision is taken |
| C78 | whole system | Spec/Learning.lean says when the history teaches a link; the proof follows the event from the input (Proofs/Noting: it gets the highest priority, because all buffered priorities are below 1, Proofs/Settled), through selection and matching (C76), to the double loop over the history (Proofs/Scenes, Learning), which reaches the pair whatever it learns before, as learning leaves the observations of existing concepts alone; the stored link stays stored for the rest of the call (C40) |
| C79 | Decision_Anticipate | Spec/Anticipation.lean gives the relation between the states before and after (expectation, negative evidence, noting of predictions), independently of the loops and of the order of checks; Props/Anticipation.lean proves that every run is of this form, by an induction over the sweep with the invariant of reachable states. Props/NoStronger.lean derives that no link becomes more likely: visited links are known in their table (as long as there is room), so that the negative evidence is revised into them (C12, C21). |
| C80 | Cycle_RelativeForgetting, its place in the cycle, eviction | Spec/Forgetting.lean gives the relation between the states before and after a round of forgetting and the ranking of concepts; Props/Forgetting.lean proves it of the loops and rebuilds of the queues (C10). Proofs/Rest.lean: forgetting is the last step of every cycle and everything which can happen between two calls leaves queue and uses alone, except that answers add uses; by induction over histories. Combined with C38 this gives which concept is evicted. `Demo.C80_stale` shows why answers are excepted: the concept just asked for may be the most useful and ranked last. |
| C81 | The attribute relations of Cycle_ProcessBeliefEvents | Spec/Compared.lean says in terms of trees when a comparison follows and which; Props/Compared.lean proves the code computes exactly these (both directions), through the trees of the array encoding (C28), including that everything fits. Stated for atomic attributes: `Demo.C81_junk` shows that for a compound attribute the code leaves its components below the terminator of `(= attr)`. |
| C82 | The first part of Decision_Execute | Spec/Equivalence.lean describes the comparison of two links by relations between states: when a link is an alternative (`Alternative`, with the difference of two sequences as an inductive relation), what is then added (`Concludes`, `Generalised`), and the walk through the table, link by link in the state at that time. Props/Equivalence.lean proves that the code makes exactly these transitions, by weakest preconditions and the invariant of reachable states. |
| C83 | The question branch of NAR_AddInputNarsese2 | Spec/Asking.lean gives the state after a question as an inductive relation with three cases (no concept answers; priming off; priming on) in which everything not named is unchanged. Props/Asking.lean proves it by an invariant of the search over all concepts: the concept noted is one that matches, and the answer noted is its. |
| C84 | The second part of Decision_Execute | Spec/Execution.lean describes the execution by inductive relations between states (`Execution`, `Result`, `AssumesFailure`, `Executed`), with the telling as a parameter. Props/Execution.lean proves that the code follows them with NAR_AddInputBelief in that place, for every depth of nesting, using the invariant of reachable states. |
| C85 | The reporting commands of the shell, their output as data (Model/Reports.lean) | From the invariant of reachable states: representation of the hash tables (the chain of a bucket is the list of its entries), of the inverted atom index, the queues. Partial: *concepts leaves out the links of the last (tenth) operation, *stats divides by zero when the clock was set to 0. |
| C86 | The functions adding events, again, with the lines they print as data (Model/Announce.lean) | Erasing the lines gives back the functions of Model/Memory.lean, so all their theorems apply. Then the lines are followed through each function: a line comes from the event it is about, revised lines from the entry of the belief or link table. Partial: a told ==> statement is announced twice (C86_twice), and its lines are covered by C86_same and C86_silent only. |
| C87 | Memory_AddEvent, Memory_ProcessNewBeliefEvent, Inference_RevisionAndChoice | Spec/Past.lean relates the states before and after; the record of the concept is followed through the update of the beliefs, and shown to be untouched by the recursive addition of the revised belief (induction on the depth of the recursion). |
| C88 | Memory_addCyclingEvent, Memory_containsEvent, Memory_containsBeliefOrGoal, strongerBeliefKnown, Event_Equal | Spec/Admission.lean says in terms of the waiting events and the remembered ones when an event is ignored, and what an offer does to a buffer as a bag of events; each test of the program is shown to decide its part of the specification, and the push is the one of C07. |
| C89 | Cycle_PopEvents, Memory_addCyclingEvent, Cycle_RelativeForgetting, all calls | Spec/Waiting.lean treats each buffer as a bag of events with priorities and lists the moves; every elementary change of state (Spec/System.lean Step, of which all calls are shown to consist) is one move or none; the fate of an event follows by induction on the moves. |
| C41–C44 | `Memory_AddEvent` etc. | invariants over the state machine |
| C45 | `Usage` | order arguments |
| C46–C49 | `NAR`, `Decision` | step lemmas and inductions |
| C50, C51 | `NAL`, `Cycle` | filters characterised over positions (Spec/Derived.lean); a run of the inference step is a chain of memory insertions with their premises; C51 false for an operation and its condition: witness |
| C52, C53 | `Inference` | convexity; case analysis |
| C54 | `NAR_INIT` | false (hidden state survives): witness; partial for the state it resets |
| C55 | two threads + mutex as a transition system | inductive invariant over all interleavings |
| C56 | whole system | global invariant by induction over all API call sequences |
| C63, C64 | whole system | parts of the same invariant |
| C65 | `RuleText`, `RuleTableCode`, `Parser` | the generated table is proved equal to the parsed texts, by kernel evaluation |
| C66 | `NAR` | the loops of the question search are characterised by the set of possible answers (Spec/Question.lean) |
| C67 | whole system | settings are invariant over runs (Spec/Run.lean), each call by cases |
| C68 | `UDPNAR` transition system | invariants, a well-founded measure for the stop, explicit executions for what fails |
| C69 | `Shell` | parsing of lines by cases on the first character, induction over the lines |
| C57 | `myrand` | arithmetic |
| C58, C59 | `Inference_*Deduction`, sequences of `Narsese` | array functions refine tree functions (Spec/Operation.lean); recursion bound never reached |
| C60 | `Variable_Unify2` with analogy | loop invariant; C60_negative_distance shows the hypothesis is needed |
| C62 | `Narsese_Sentence` | computation on the reversed text; decimal `sscanf` modelled |
| C61 | variable introduction of `Variable.c` | both loops are one loop over a choice function; invariant on the numbering |

Properties C34–C56 are attempted in this order of layers; MANIFEST.json is the up-to-date status.
