{
 "claims": [
  {
   "property": "C01",
   "status": "proved",
   "theorems": [
    "Verif.Props.C01_disjoint",
    "Verif.Props.C64_blocks"
   ],
   "note": "All well-formed geometries, any dimension, all three fits."
  },
  {
   "property": "C02",
   "status": "proved",
   "theorems": [
    "Verif.Props.C02_cover",
    "Verif.Props.C02_cover_valid",
    "Verif.Props.C02_cover_valid_exact",
    "Verif.Props.C64_cover"
   ],
   "note": "Exactly-one-block coverage for overhang/shrink; exact characterisation for valid."
  },
  {
   "property": "C03",
   "status": "proved",
   "theorems": [
    "Verif.Props.C03_nonempty",
    "Verif.Props.C03_within",
    "Verif.Props.C64_within"
   ],
   "note": "Overhang is excluded from containment by design; non-emptiness holds for all fits."
  },
  {
   "property": "C04",
   "status": "proved",
   "theorems": [
    "Verif.Props.C04_clip",
    "Verif.Props.C04_context",
    "Verif.Props.C04_idempotent",
    "Verif.Props.C64_blocks"
   ],
   "note": "Context preserved, idempotent, equals clipping of the overhang block."
  },
  {
   "property": "C05",
   "status": "proved",
   "theorems": [
    "Verif.Props.C05_enumeration_ok",
    "Verif.Props.C05_needs_nonnegative_size",
    "Verif.Props.C05_no_levels",
    "Verif.Props.C05_num_blocks",
    "Verif.Props.C05_num_roots",
    "Verif.Props.C64_blocks"
   ],
   "note": "Hypothesis: total write size is non-negative (a witness shows the count is wrong otherwise)."
  },
  {
   "property": "C06",
   "status": "partial",
   "theorems": [
    "Verif.Props.C06_block_id_conflict",
    "Verif.Props.C06_block_id_partial",
    "Verif.Props.C06_false_negative_context",
    "Verif.Props.C06_task"
   ],
   "note": "Proved when the write ROI does not start before the read ROI (always so with read_write_conflict); false otherwise, witness C06_false_negative_context."
  },
  {
   "property": "C07",
   "status": "proved",
   "theorems": [
    "Verif.Props.C07_conflict_ordered"
   ],
   "note": "Transitive ordering of every read/write-overlapping pair."
  },
  {
   "property": "C08",
   "status": "proved",
   "theorems": [
    "Verif.Props.C08_closed",
    "Verif.Props.C08_false_shrunk_read",
    "Verif.Props.C08_inverse"
   ],
   "note": "Under ReadOK (no negative context, or fit is not shrink); C08_false_shrunk_read shows what happens otherwise."
  },
  {
   "property": "C09",
   "status": "proved",
   "theorems": [
    "Verif.Props.C09_acyclic_task",
    "Verif.Props.C09_closed",
    "Verif.Props.C09_pipeline_acyclic"
   ],
   "note": "Single task and whole pipeline (including intertask dependencies)."
  },
  {
   "property": "C10",
   "status": "proved",
   "theorems": [
    "Verif.Props.C10_has_level",
    "Verif.Props.C10_reached",
    "Verif.Props.C10_roots"
   ],
   "note": ""
  },
  {
   "property": "C11",
   "status": "proved",
   "theorems": [
    "Verif.Props.C11_no_conflict"
   ],
   "note": ""
  },
  {
   "property": "C12",
   "status": "partial",
   "theorems": [
    "Verif.C12_exact_iff",
    "Verif.C12_missed",
    "Verif.Props.C12_covers",
    "Verif.Props.C12_false_outside",
    "Verif.Props.C12_subgraph_partial"
   ],
   "note": "Proved unless the queried ROI misses the total write ROI and the origin lies off-grid inside it; witness C12_false_outside. C12_exact_iff gives the exact condition, C12_missed what is returned otherwise."
  },
  {
   "property": "C13",
   "status": "partial",
   "theorems": [
    "Verif.Props.C13_complete_partial",
    "Verif.Props.C13_data_complete_partial",
    "Verif.Props.C13_false",
    "Verif.Props.C13_inside",
    "Verif.Props.C13_no_spurious_partial"
   ],
   "note": "Proved, as an equivalence, when the upstream task does not overhang what is queried (C13_complete_partial, C13_no_spurious_partial); C13_false is an execution in which a block runs before the data it reads is written."
  },
  {
   "property": "C14",
   "status": "partial",
   "theorems": [
    "Verif.Props.C14_false_asymmetric",
    "Verif.Props.C14_false_overhang",
    "Verif.Props.C14_inverse_partial"
   ],
   "note": "Proved when the dependent task has symmetric, non-negative context and neither side overhangs; false otherwise (two witnesses)."
  },
  {
   "property": "C15",
   "status": "proved",
   "theorems": [
    "Verif.C15_dependency_order",
    "Verif.C15_held",
    "Verif.C15_loose",
    "Verif.C15_loose_task",
    "Verif.C15_skipped",
    "Verif.C15_task",
    "Verif.Props.C15_pipeline"
   ],
   "note": "Stated on the event history: everything transitively upstream completed before the hand-out (also for skips and held blocks)."
  },
  {
   "property": "C16",
   "status": "partial",
   "theorems": [
    "Verif.Props.C16_false_asymmetric",
    "Verif.Props.C16_first_time_partial",
    "Verif.Props.C16_linked_partial",
    "Verif.Props.C16_no_races_partial",
    "Verif.Props.C16_single_task"
   ],
   "note": "Full for single tasks (C16_single_task). For pipelines proved under Linked and Fed, and for first hand-outs without them; C16_false_asymmetric is an execution with a race. C16_linked_partial: for linked pipelines also without Fed."
  },
  {
   "property": "C17",
   "status": "partial",
   "theorems": [
    "Verif.C17_loose_once_partial",
    "Verif.C17_loose_partial",
    "Verif.C17_never_again_partial",
    "Verif.C17_once_partial",
    "Verif.Props.C17_false_asymmetric"
   ],
   "note": "For every consistent dependency graph (DGraph.OK, which all single tasks and all linked and fed pipelines satisfy); C17_false_asymmetric: for a pipeline whose dependent task has asymmetric context a completed block is handed out again. Also for graphs in which blocks of dependent tasks lack upstream blocks (DGraph.Loose, all linked pipelines): C17_loose_partial, C17_loose_once_partial."
  },
  {
   "property": "C18",
   "status": "partial",
   "theorems": [
    "Verif.C18_attempts_partial",
    "Verif.C18_dead_is_final_partial",
    "Verif.C18_false_asymmetric",
    "Verif.C18_loose_final_partial",
    "Verif.C18_loose_partial",
    "Verif.C18_loose_retry_iff_partial",
    "Verif.C18_retry_iff_partial"
   ],
   "note": "For every consistent dependency graph: bound on hand-outs, requeue-iff, failed counted once, dead is final; negative max_retries counts as 0. C18_false_asymmetric: with asymmetric context a block is handed out twice although nothing failed. All of it also for DGraph.Loose (C18_loose_partial, C18_loose_retry_iff_partial, C18_loose_final_partial)."
  },
  {
   "property": "C19",
   "status": "partial",
   "theorems": [
    "Verif.C19_any_graph",
    "Verif.C19_counters_partial",
    "Verif.C19_disjoint_partial",
    "Verif.C19_false_asymmetric",
    "Verif.C19_loose_disjoint_partial",
    "Verif.C19_loose_partial",
    "Verif.C19_queue_partial",
    "Verif.C19_starved_not_queued"
   ],
   "note": "For every consistent dependency graph: exact counters for every task at every moment, and the queue contents. For every graph: the counters count events (C19_any_graph). C19_false_asymmetric: with asymmetric context a task counts as done although only one of its three blocks was processed. Also for DGraph.Loose (C19_loose_partial), where blocks without upstream blocks are never ready."
  },
  {
   "property": "C20",
   "status": "partial",
   "theorems": [
    "Verif.C20_false_asymmetric",
    "Verif.C20_loose_partial",
    "Verif.C20_no_block_forgotten_partial",
    "Verif.C20_progress_partial"
   ],
   "note": "For every consistent graph (DGraph.OK); the pipelines for which daisy builds such graphs are the subject of C13/C14/C27. C20_false_asymmetric: with asymmetric context no block of the dependent task is ever handed out. C20_loose_partial: for DGraph.Loose the blocks without upstream blocks, and what comes after them, are left."
  },
  {
   "property": "C21",
   "status": "partial",
   "theorems": [
    "Verif.C21_false_asymmetric",
    "Verif.C21_loose_partial",
    "Verif.C21_orphans_exact_partial",
    "Verif.C21_orphans_stay_partial",
    "Verif.C21_unaffected_partial"
   ],
   "note": "For every consistent graph: reported orphans = descendants of permanently failed blocks, for every set.pop order; orphans never get any event. C21_false_asymmetric: with asymmetric context a dependent block is not reported. Also for DGraph.Loose."
  },
  {
   "property": "C22",
   "status": "partial",
   "theorems": [
    "Verif.C22_false",
    "Verif.C22_false_single",
    "Verif.C22_is_done_no_orphans",
    "Verif.C22_is_done_partial",
    "Verif.C22_loose_is_done_no_orphans",
    "Verif.C22_loose_is_done_partial",
    "Verif.C22_loose_orphan_count_lower",
    "Verif.C22_loose_orphan_count_partial",
    "Verif.C22_loose_pending_partial",
    "Verif.C22_orphan_count_lower",
    "Verif.C22_orphan_count_partial",
    "Verif.C22_orphan_count_upper",
    "Verif.C22_pending_partial",
    "Verif.Props.C22_all_fail",
    "Verif.Props.C22_double_counting",
    "Verif.Props.C22_loose_orphan_count_completed",
    "Verif.Props.C22_loose_orphan_count_degree",
    "Verif.Props.C22_loose_orphan_count_upper",
    "Verif.Props.C22_orphan_count_completed",
    "Verif.Props.C22_orphan_count_degree"
   ],
   "note": "False in general (C22_false: an orphan is counted twice and is_done stays False forever). Proved under OrphanExact: each block has at most one permanently failed ancestor, or does not have among its direct upstream blocks one that has completed and two others that are lost (failed permanently or orphaned); so if at most one block fails, if no block has more than two direct upstream blocks, or if nothing completes; the count is never too small, and never larger than the number of pairs of a permanently failed block and an orphan of the task (C22_orphan_count_upper); no orphan is counted more often than it has direct upstream blocks (C22_orphan_count_degree). C22_false_single: so for a single task of 4 x 4 blocks with a context of one block. Also for DGraph.Loose: C22_loose_*. How far the count can be off: C22_orphan_count_completed (an orphan is counted at most once plus once for each completed direct upstream block), and C22_all_fail (if nothing completes and nothing is ready or out, failed and orphaned blocks add up to all blocks); C22_double_counting is what the test test_orphan_double_counting demands, for every order."
  },
  {
   "property": "C23",
   "status": "partial",
   "theorems": [
    "Verif.C23_false_asymmetric",
    "Verif.C23_loose_partial",
    "Verif.C23_result_partial",
    "Verif.C23_schedule_independent_partial"
   ],
   "note": "For every consistent graph; C23_false_asymmetric: with asymmetric context the order in which blocks complete decides which blocks are processed at all. C23_loose_partial: the result in terms of the outcomes also for DGraph.Loose."
  },
  {
   "property": "C24",
   "status": "partial",
   "theorems": [
    "Verif.C24_false_asymmetric",
    "Verif.C24_finite_partial",
    "Verif.C24_loose_partial",
    "Verif.C24_never_raises_partial"
   ],
   "note": "For every consistent graph: totality of all legal calls in all reachable states and a bound on the length of every execution. C24_false_asymmetric: with asymmetric context the second release of a block that was handed out twice raises KeyError. Totality also for DGraph.Loose."
  },
  {
   "property": "C25",
   "status": "proved",
   "theorems": [
    "Verif.C25_any_graph",
    "Verif.C25_check_function",
    "Verif.C25_loose",
    "Verif.C25_skip_like_success"
   ],
   "note": "Also for graphs that are not consistent (C25_any_graph): exactly the accepted blocks are skipped."
  },
  {
   "property": "C26",
   "status": "proved",
   "theorems": [
    "Verif.C26_acquire_none",
    "Verif.C26_any_graph",
    "Verif.C26_loose_acquire_none",
    "Verif.C26_loose_ready_tasks",
    "Verif.C26_ready_tasks"
   ],
   "note": "Also for graphs that are not consistent (C26_any_graph). Also for DGraph.Loose: C26_loose_ready_tasks, C26_loose_acquire_none."
  },
  {
   "property": "C27",
   "status": "partial",
   "theorems": [
    "Verif.C27_exactly",
    "Verif.C27_hungry_never",
    "Verif.C27_never_done",
    "Verif.C27_stuck",
    "Verif.Props.C27_all_complete_partial",
    "Verif.Props.C27_false_no_upstream",
    "Verif.Props.C27_false_others",
    "Verif.Props.C27_false_overhang",
    "Verif.Props.C27_linked_exactly",
    "Verif.Props.C27_linked_iff",
    "Verif.Props.C27_serial_exactly",
    "Verif.Props.C27_serial_linked",
    "Verif.Props.C27_server_linked",
    "Verif.Props.C27_server_never_ends",
    "Verif.Props.C27_server_rest_partial",
    "Verif.Props.C27_server_waits",
    "Verif.Props.C27_single_task"
   ],
   "note": "Full for single tasks. For pipelines proved under Linked and Fed; two executions show blocks that never become ready. For linked pipelines exactly (C27_linked_exactly, C27_linked_iff): a block completes iff neither it nor anything before it lacks upstream blocks although its task requires others; such blocks are never handed out (C27_hungry_never) and their task is never done (C27_never_done). At the servers: C27_server_waits, C27_server_never_ends (the server never ends if a block lacks upstream blocks and none fails), C27_serial_exactly (the serial server returns without those blocks, and what it has called is exactly the rest). For fair completion with such blocks: C27_stuck (what a stuck server waits for), C27_server_rest_partial (from every state, if the orphans are counted exactly, there is a continuation in which all blocks complete except those failed permanently, those after them, and those without upstream blocks or after such a block; it says that such a continuation exists, not that every one is such), C27_false_others (a witness that one such block can keep delayed requests for unrelated tasks from being answered), C27_server_linked and C27_serial_linked (for linked pipelines)."
  },
  {
   "property": "C28",
   "status": "partial",
   "theorems": [
    "Verif.C28_contents",
    "Verif.C28_dropped_partial",
    "Verif.C28_false",
    "Verif.C28_false_single",
    "Verif.C28_loose_contents",
    "Verif.C28_retained"
   ],
   "note": "False in general (C28_false: a block with two leaf dependents stays in the surface). Proved when every block has at most one dependent; contents of surface/boundary characterised in general. C28_retained: a block with two leaf dependents always stays, as long as nothing fails for good. C28_false_single: so for a single task of three blocks. C28_loose_contents: the contents also for DGraph.Loose."
  },
  {
   "property": "C29",
   "status": "partial",
   "theorems": [
    "Verif.C29_false_asymmetric",
    "Verif.C29_never_raises_partial",
    "Verif.C29_one_client_partial",
    "Verif.C29_sent_list_partial"
   ],
   "note": "For every consistent graph, in every reachable state of the event loop, for correct clients (GoodMsg: acquire for served tasks, releases as SUCCESS or FAILED); other statuses raise. C29_false_asymmetric: with asymmetric context a correct request makes the server raise AssertionError."
  },
  {
   "property": "C30",
   "status": "proved",
   "theorems": [
    "Verif.C30_any_state",
    "Verif.C30_stale_return"
   ],
   "note": "C30_any_state needs no hypothesis on the state at all; C30_stale_return follows it through whole executions."
  },
  {
   "property": "C31",
   "status": "proved",
   "theorems": [
    "Verif.C31_counted_once"
   ],
   "note": ""
  },
  {
   "property": "C32",
   "status": "proved",
   "theorems": [
    "Verif.C32_iteration",
    "Verif.C32_lost_blocks"
   ],
   "note": "Per iteration of the event loop, for all streams that are closed at that moment."
  },
  {
   "property": "C33",
   "status": "partial",
   "theorems": [
    "Verif.C33_false",
    "Verif.C33_get_lost_partial",
    "Verif.C33_raises_iff"
   ],
   "note": "Proved when no entry is both timed out and closed; otherwise KeyError (C33_false). C33_raises_iff: KeyError exactly then, and no other exception."
  },
  {
   "property": "C34",
   "status": "partial",
   "theorems": [
    "Verif.C34_announced_once",
    "Verif.C34_false",
    "Verif.C34_false_single",
    "Verif.C34_stop_iff",
    "Verif.C34_stop_means_finished_partial",
    "Verif.Props.C34_all_fail"
   ],
   "note": "Stop iff all task states are done (every state), announcements exactly once: proved. That done means finished needs OrphanExact; C34_false stops while a client still has a block. C34_false_single: so for a single task of 4 x 4 blocks. C34_all_fail: in runs in which nothing completes the claim holds without OrphanExact."
  },
  {
   "property": "C35",
   "status": "partial",
   "theorems": [
    "Verif.C35_answer",
    "Verif.C35_false",
    "Verif.C35_false_single",
    "Verif.C35_loose_shutdown_partial",
    "Verif.C35_no_request_dropped",
    "Verif.C35_shutdown_partial"
   ],
   "note": "No ready block at shutdown, and no request dropped: proved. That nothing waits needs OrphanExact; C35_false shuts a client down while a block waits. C35_false_single: so for a single task of 6 x 5 blocks."
  },
  {
   "property": "C36",
   "status": "partial",
   "theorems": [
    "Verif.C36_false",
    "Verif.C36_timeout_ignored"
   ],
   "note": "False: Task.timeout is never used (C36_timeout_ignored, C36_false)."
  },
  {
   "property": "C37",
   "status": "partial",
   "theorems": [
    "Verif.C37_each_once_partial",
    "Verif.C37_false_asymmetric",
    "Verif.C37_never_raises_partial",
    "Verif.C37_order",
    "Verif.C37_pipeline_partial",
    "Verif.C37_returns_partial"
   ],
   "note": "Proved for every consistent dependency graph, hence for linked and fed pipelines: each block once, order, no exception, termination. C37_false_asymmetric: with asymmetric context a block is processed three times and another never."
  },
  {
   "property": "C38",
   "status": "partial",
   "theorems": [
    "Verif.C38_false",
    "Verif.C38_false_plain",
    "Verif.C38_resume_partial",
    "Verif.C38_single_task",
    "Verif.C38_skips"
   ],
   "note": "False (C38_false: the second task is not processed). Proved when only blocks whose dependents are in the same task are skipped, in particular for single tasks. C38_false_plain: so for a plain pipeline of two stages."
  },
  {
   "property": "C39",
   "status": "partial",
   "theorems": [
    "Verif.C39_attempt_partial",
    "Verif.C39_false",
    "Verif.C39_false_single",
    "Verif.C39_never_recovers"
   ],
   "note": "False (C39_false): the block object keeps the status FAILED. Proved: how each attempt is counted; a block that failed once never completes unless the process function resets the status. C39_false_single: the same with a task of one block."
  },
  {
   "property": "C40",
   "status": "proved",
   "theorems": [
    "Verif.Props.C40_flatten",
    "Verif.Props.C40_flatten_tasks",
    "Verif.Props.C40_same_graph"
   ],
   "note": ""
  },
  {
   "property": "C41",
   "status": "partial",
   "theorems": [
    "Verif.C41_all_done",
    "Verif.C41_false",
    "Verif.C41_false_asymmetric",
    "Verif.C41_false_single",
    "Verif.C41_no_failures_partial",
    "Verif.C41_true_partial",
    "Verif.Props.C41_all_fail"
   ],
   "note": "False with failures (C41_false returns True although the only block failed). Proved when no block failed permanently, and characterised under OrphanExact. C41_false_asymmetric: with asymmetric context True is returned although nothing failed and two blocks were never processed. C41_false_single: the only block built from a task. C41_all_fail: in runs in which nothing completes, the result is True iff every block has failed for good or is downstream of one that has, without OrphanExact."
  },
  {
   "property": "C42",
   "status": "proved",
   "theorems": [
    "Verif.C42_ids",
    "Verif.C42_recruit",
    "Verif.C42_set_num",
    "Verif.C42_stop"
   ],
   "note": "For every history of pool operations."
  },
  {
   "property": "C43",
   "status": "proved",
   "theorems": [
    "Verif.C43_health",
    "Verif.C43_raises"
   ],
   "note": "Including which exceptions a health check raises."
  },
  {
   "property": "C44",
   "status": "partial",
   "theorems": [
    "Verif.C44_bound_partial",
    "Verif.C44_false",
    "Verif.C44_step"
   ],
   "note": "False (C44_false: a failure reported late by a worker that was already replaced starts an additional worker). Proved when failures are reported by workers still in their pool; C44_step: nothing else exceeds the number."
  },
  {
   "property": "C45",
   "status": "partial",
   "theorems": [
    "Verif.C45_crash_partial",
    "Verif.C45_false",
    "Verif.C45_never"
   ],
   "note": "False (C45_false: a worker that ends with exit code 0 is never replaced, C45_never). Proved for nonzero exit codes."
  },
  {
   "property": "C46",
   "status": "partial",
   "theorems": [
    "Verif.C46_exact",
    "Verif.C46_false",
    "Verif.C46_lost",
    "Verif.C46_none",
    "Verif.C46_release_partial",
    "Verif.C46_rounds"
   ],
   "note": "False only for a body interrupted after setting SUCCESS (C46_false). Proved for all other bodies; C46_lost, C46_rounds cover lost connections and whole loops."
  },
  {
   "property": "C47",
   "status": "proved",
   "theorems": [
    "Verif.C47_complete",
    "Verif.C47_end",
    "Verif.C47_lossless",
    "Verif.C47_prefix",
    "Verif.C47_rejected",
    "Verif.C47_same_sequence",
    "Verif.C47_segmentation",
    "Verif.C47_waits"
   ],
   "note": "For every split of the byte stream into pieces and all messages below the limits of the length field."
  },
  {
   "property": "C48",
   "status": "partial",
   "theorems": [
    "Verif.C48_client_partial",
    "Verif.C48_complete",
    "Verif.C48_env",
    "Verif.C48_equals",
    "Verif.C48_false",
    "Verif.C48_false_silent",
    "Verif.C48_iff",
    "Verif.C48_missing",
    "Verif.C48_read_values",
    "Verif.C48_roundtrip_partial"
   ],
   "note": "False for values with \":\" or \"=\" (C48_false: IPv6 host, C48_false_silent: a task id that changes the port). Proved for values without them, and exactly then (C48_iff). C48_complete, C48_missing: whatever the environment variable says, a client takes nothing that does not stand in the context, and none is made if a key is missing."
  },
  {
   "property": "C49",
   "status": "proved",
   "theorems": [
    "Verif.C49_request_roi",
    "Verif.C49_roi",
    "Verif.C49_unique",
    "Verif.C49_voxels",
    "Verif.C49_write_roi"
   ],
   "note": "Smallest cover on the grid, unique; for the dead-code helper functions of blocks.py."
  },
  {
   "property": "C50",
   "status": "partial",
   "theorems": [
    "Verif.C50_raises_iff",
    "Verif.Props.C50_builds_partial",
    "Verif.Props.C50_done_immediately",
    "Verif.Props.C50_false"
   ],
   "note": "Proved except for a root task with read_write_conflict whose total ROI is smaller than one block: IndexError (C50_false). C50_raises_iff: exactly then, and no other exception."
  },
  {
   "property": "C51",
   "status": "partial",
   "theorems": [
    "Verif.C51_assign",
    "Verif.C51_block",
    "Verif.C51_daisy_assignments",
    "Verif.C51_false",
    "Verif.C51_freeze",
    "Verif.C51_frozen_partial",
    "Verif.C51_thaw"
   ],
   "note": "False only for assignments to the private flag itself (C51_false). Proved for all other attributes, and for the assignments daisy makes."
  },
  {
   "property": "C52",
   "status": "partial",
   "theorems": [
    "Verif.C52_bar",
    "Verif.C52_closed",
    "Verif.C52_done",
    "Verif.C52_false",
    "Verif.C52_false_skipped",
    "Verif.C52_final_partial",
    "Verif.C52_listed",
    "Verif.C52_raises"
   ],
   "note": "False for skipped blocks (C52_false, C52_false_skipped). Proved when the final state is the one of the last acquired or released block; marks, closing and summary proved in general."
  },
  {
   "property": "C53",
   "status": "partial",
   "theorems": [
    "Verif.C53_false",
    "Verif.C53_false_plain",
    "Verif.C53_loose_no_skips",
    "Verif.C53_no_skips",
    "Verif.C53_pipeline_partial",
    "Verif.C53_recruited_partial"
   ],
   "note": "Proved under OrphanExact, and in full if no check function accepts a block; C53_false is a stall without them. C53_false_plain: so for a plain pipeline of three stages. Also for DGraph.Loose, blocks without upstream blocks excepted: C53_loose_no_skips."
  },
  {
   "property": "C54",
   "status": "proved",
   "theorems": [
    "Verif.Props.C54_acyclic",
    "Verif.Props.C54_all_recorded",
    "Verif.Props.C54_dual",
    "Verif.Props.C54_needs_unique_ids",
    "Verif.Props.C54_recorded_once",
    "Verif.Props.C54_roots",
    "Verif.Props.C54_scheduler_tasks",
    "Verif.Props.C54_upstream"
   ],
   "note": "For task graphs in which different tasks have different ids (C54_needs_unique_ids)."
  },
  {
   "property": "C55",
   "status": "partial",
   "theorems": [
    "Verif.C55_false",
    "Verif.C55_progress_partial",
    "Verif.C55_stuck"
   ],
   "note": "False (C55_false: a livelock of a three-stage pipeline with tasks in the order run_blockwise produces). Proved when pending_requests lists upstream tasks first and every ready task has a delayed request."
  },
  {
   "property": "C56",
   "status": "partial",
   "theorems": [
    "Verif.C56_bounded",
    "Verif.C56_false_early",
    "Verif.C56_false_early_plain",
    "Verif.C56_false_raises",
    "Verif.C56_false_raises_plain",
    "Verif.C56_finished_partial",
    "Verif.C56_never_raises_partial",
    "Verif.C56_returns_partial",
    "Verif.Props.C56_all_fail_finished",
    "Verif.Props.C56_all_fail_never_raises",
    "Verif.Props.C56_all_fail_returns"
   ],
   "note": "False where an orphan is counted twice (C56_false_early returns too early, C56_false_raises raises KeyError); proved under OrphanExact. C56_false_early_plain, C56_false_raises_plain: so for plain pipelines. C56_all_fail_returns: if every process function marks its block as failed and there is no check function, the loop ends for every consistent graph, all blocks being failed or orphaned; C56_all_fail_never_raises, C56_all_fail_finished say the same of one execution in which nothing has completed."
  },
  {
   "property": "C57",
   "status": "proved",
   "theorems": [
    "Verif.C57_close_noticed",
    "Verif.C57_end_to_end",
    "Verif.C57_fifo"
   ],
   "note": "End to end from the bytes of each client to the queue of the main loop."
  },
  {
   "property": "C58",
   "status": "partial",
   "theorems": [
    "Verif.C58_false",
    "Verif.C58_never_raises_partial"
   ],
   "note": "False (C58_false: a message that cannot be unpickled raises in the main loop). Proved if all messages can be unpickled."
  },
  {
   "property": "C59",
   "status": "proved",
   "theorems": [
    "Verif.C59_count",
    "Verif.C59_restart",
    "Verif.C59_total"
   ],
   "note": ""
  },
  {
   "property": "C60",
   "status": "partial",
   "theorems": [
    "Verif.C60_documented_fails",
    "Verif.C60_false",
    "Verif.C60_status_partial"
   ],
   "note": "False of the documented loop (C60_documented_fails: every processed block is reported as failed). Holds if status is set instead of state."
  },
  {
   "property": "C61",
   "status": "partial",
   "theorems": [
    "Verif.C61_false",
    "Verif.C61_none",
    "Verif.C61_waiting_partial"
   ],
   "note": "False (C61_false: StreamClosedError if the server vanishes between two blocks). Proved if it vanishes while the client waits."
  },
  {
   "property": "C64",
   "status": "proved",
   "theorems": [
    "Verif.Props.C64_accepts",
    "Verif.Props.C64_blocks",
    "Verif.Props.C64_cover",
    "Verif.Props.C64_total_rois",
    "Verif.Props.C64_within"
   ],
   "note": "For tasks with a nonempty write ROI, a total ROI that has room for the context, and a read ROI that does not begin after the write ROI (nor, with shrink, end before it)."
  },
  {
   "property": "C65",
   "status": "partial",
   "theorems": [
    "Verif.C65_delivered_partial",
    "Verif.C65_false",
    "Verif.C65_no_dead_holder"
   ],
   "note": "False (C65_false: the delayed request of a disconnected client is answered, the block sent nowhere counts as failed). Proved if no client is disconnected while it waits; C65_no_dead_holder holds in general."
  },
  {
   "property": "C66",
   "status": "partial",
   "theorems": [
    "Verif.C66_false",
    "Verif.C66_success_partial"
   ],
   "note": "False (C66_false: a closed stream is noticed before the queued message is read). Proved if the stream stays open."
  },
  {
   "property": "C68",
   "status": "partial",
   "theorems": [
    "Verif.C68_never_raises",
    "Verif.C68_report_false",
    "Verif.C68_report_raises_partial",
    "Verif.C68_start"
   ],
   "note": "The first part is proved, for correct clients and every task with blocks served. The second part (a reported exception is raised by the next iteration) is false for queue.Empty, which is swallowed (C68_report_false); proved for all other exceptions."
  },
  {
   "property": "C69",
   "status": "proved",
   "theorems": [
    "Verif.C69_client",
    "Verif.C69_loose_scheduler",
    "Verif.C69_loose_server",
    "Verif.C69_scheduler",
    "Verif.C69_server"
   ],
   "note": "For messages about tasks and blocks of this run. C69_loose_scheduler, C69_loose_server: also for DGraph.Loose."
  },
  {
   "property": "C62",
   "status": "partial",
   "theorems": [
    "Verif.C62_always_true",
    "Verif.C62_false",
    "Verif.C62_success_partial"
   ],
   "note": "False (C62_false): the value is a dict, true as soon as there is a task (C62_always_true). Proved when nothing fails."
  },
  {
   "property": "C63",
   "status": "partial",
   "theorems": [
    "Verif.C63_cleared_partial",
    "Verif.C63_false",
    "Verif.C63_second_result",
    "Verif.C63_second_run"
   ],
   "note": "False (C63_false): the stop event stays set, the second run handles no message (C63_second_run) and reports failure (C63_second_result). Proved if the caller clears the event."
  },
  {
   "property": "C67",
   "status": "partial",
   "theorems": [
    "Verif.C67_false",
    "Verif.C67_loose_ready_partial",
    "Verif.C67_ready_partial",
    "Verif.C67_workers_partial"
   ],
   "note": "False (C67_false: a killed worker is replaced before its block is known to be lost, the new worker is sent home, and nobody is left). Proved if the last worker of a task ends with code 0 only after the task is finished, and failures are reported by workers still in their pool. C67_loose_ready_partial: also for DGraph.Loose, for blocks that are not starved."
  },
  {
   "property": "C70",
   "status": "partial",
   "theorems": [
    "Verif.C70_can_finish_partial",
    "Verif.C70_counters_decide",
    "Verif.C70_false",
    "Verif.C70_false_single"
   ],
   "note": "False (C70_false: after an orphan was counted twice nothing that can happen stops the server). Proved with an exact orphan count (C70_can_finish_partial); when nothing is ready or held, the counters alone decide (C70_counters_decide). C70_false_single: so for a single task of 4 x 4 blocks."
  },
  {
   "property": "C71",
   "status": "partial",
   "theorems": [
    "Verif.C71_exists",
    "Verif.C71_false",
    "Verif.C71_no_failures_partial",
    "Verif.C71_single_task",
    "Verif.C71_stops_partial",
    "Verif.Props.C71_again_partial",
    "Verif.Props.C71_two_stages_partial"
   ],
   "note": "False (C71_false: pending_requests lists downstream tasks first, a fair execution without failures never stops). Proved if upstream tasks are listed first and the orphan count stays exact; in full for single tasks with at most two direct upstream blocks per block (C71_single_task). If clients ask again after each block, the order matters only among tasks that wait for other tasks (C71_again_partial), so two stages always stop (C71_two_stages_partial)."
  },
  {
   "property": "C72",
   "status": "partial",
   "theorems": [
    "Verif.C72_false",
    "Verif.C72_first_try_partial",
    "Verif.C72_init_listens",
    "Verif.C72_init_raises",
    "Verif.C72_no_retry",
    "Verif.C72_with_attribute"
   ],
   "note": "False (C72_false: the attribute max_port_tries is never set, so a failed first attempt raises AttributeError). Proved: the first attempt is used if it succeeds; there is no second one; with the attribute the claim holds. C72_init_raises, C72_init_listens: the same for the constructor as a whole; a server that has been constructed listens on a port of the first attempt."
  },
  {
   "property": "C73",
   "status": "proved",
   "theorems": [
    "Verif.C73_close_raises",
    "Verif.C73_detected",
    "Verif.C73_host",
    "Verif.C73_no_leak",
    "Verif.C73_opened"
   ],
   "note": "For all outcomes of the socket calls; if a close raises, the sockets after it stay open (C73_close_raises)."
  },
  {
   "property": "C74",
   "status": "partial",
   "theorems": [
    "Verif.C74_announced",
    "Verif.C74_announced_none",
    "Verif.C74_announced_opens",
    "Verif.C74_distinct",
    "Verif.C74_false_absolute",
    "Verif.C74_false_up",
    "Verif.C74_inside_partial",
    "Verif.C74_names"
   ],
   "note": "Names, distinctness and the announced names are proved; inside the log directory only for task ids that are relative and have no .. (C74_false_absolute, C74_false_up)."
  },
  {
   "property": "C75",
   "status": "proved",
   "theorems": [
    "Verif.C75_failures",
    "Verif.C75_honest",
    "Verif.C75_never_raises",
    "Verif.C75_stray"
   ],
   "note": "Workers of daisy meet the hypothesis (C75_honest); a stray report makes the monitor raise (C75_stray)."
  },
  {
   "property": "C76",
   "status": "partial",
   "theorems": [
    "Verif.C76_each_once_partial",
    "Verif.C76_endless",
    "Verif.C76_exception",
    "Verif.C76_false",
    "Verif.C76_register",
    "Verif.C76_skips",
    "Verif.C76_unknown"
   ],
   "note": "False (C76_false: an observer that unregisters itself makes the loop skip the next one, C76_skips). Proved if no callback changes the list, or if callbacks only register. C76_unknown: to unregister an observer that is not registered raises ValueError and changes nothing."
  },
  {
   "property": "C77",
   "status": "partial",
   "theorems": [
    "Verif.C77_cleared",
    "Verif.C77_false",
    "Verif.C77_leaks",
    "Verif.C77_served_partial",
    "Verif.C77_singleton"
   ],
   "note": "False (C77_false: a process that inherits the entry of a dead ancestor with the same pid gets a loop that nobody serves). Proved if pids are not reused; one loop per process in full. C77_cleared, C77_leaks: every call of run_blockwise leaves a thread with a loop behind."
  },
  {
   "property": "C78",
   "status": "partial",
   "theorems": [
    "Verif.C78_false",
    "Verif.C78_redirect_iff",
    "Verif.C78_redirect_partial",
    "Verif.C78_same_files"
   ],
   "note": "False (C78_false: with_suffix replaces what follows a dot in the basename). Proved for names without a dot. C78_redirect_iff: exactly for the names without a suffix; C78_same_files: names that differ in their suffixes share their files."
  },
  {
   "property": "C79",
   "status": "partial",
   "theorems": [
    "Verif.C79_accepted_partial",
    "Verif.C79_false_accepted",
    "Verif.C79_false_stopped",
    "Verif.C79_ids",
    "Verif.C79_leaks",
    "Verif.C79_raises",
    "Verif.C79_single_partial"
   ],
   "note": "False (C79_false_stopped, C79_false_accepted): the pools of earlier runs stay registered. Proved for a server that is used once, and for tasks that all runs had; what goes wrong otherwise is proved in general (C79_raises, C79_leaks). C79_ids: ids are never reused."
  },
  {
   "property": "C80",
   "status": "proved",
   "theorems": [
    "Verif.Props.C80_attempts",
    "Verif.Props.C80_builds",
    "Verif.Props.C80_data_complete",
    "Verif.Props.C80_links",
    "Verif.Props.C80_no_races",
    "Verif.Props.C80_serial_returns",
    "Verif.Props.C80_serial_voxels",
    "Verif.Props.C80_server_can_finish",
    "Verif.Props.C80_server_result"
   ],
   "note": "From conditions on the parameters of the tasks only."
  },
  {
   "property": "C81",
   "status": "partial",
   "theorems": [
    "Verif.C81_false",
    "Verif.Props.C81_again_partial",
    "Verif.Props.C81_no_links_partial",
    "Verif.Props.C81_two_stages_partial",
    "Verif.Props.C81_upstream_first_partial"
   ],
   "note": "False (C81_false: a fair run of a pipeline with three stages hangs). Proved for pipelines of at most two stages as run_blockwise serves them, and for all pipelines if upstream tasks with upstream tasks are served first."
  },
  {
   "property": "C82",
   "status": "partial",
   "theorems": [
    "Verif.C82_dead_partial",
    "Verif.C82_exclusive_partial",
    "Verif.C82_false",
    "Verif.Props.C82_no_races_partial"
   ],
   "note": "False (C82_false: when a connection breaks the server gives the block to another process while the first one still works on it). Proved for processes whose connections the server considers open, and in general if closed connections belong to processes that do not work any more; likewise the absence of races in plain pipelines."
  },
  {
   "property": "C83",
   "status": "proved",
   "theorems": [
    "Verif.C83_expected_messages",
    "Verif.C83_good_messages",
    "Verif.C83_never_raises",
    "Verif.C83_refines"
   ],
   "note": "Invariant of the server together with its workers. C83_never_raises assumes that no process has reported an exception (the server raises it again, C68) and that every task is in the list of tasks once."
  },
  {
   "property": "C84",
   "status": "proved",
   "theorems": [
    "Verif.C84_block",
    "Verif.C84_no_request",
    "Verif.C84_request"
   ],
   "note": "Invariant of the server together with its workers."
  },
  {
   "property": "C85",
   "status": "proved",
   "theorems": [
    "Verif.C85_completed",
    "Verif.C85_failed"
   ],
   "note": "By a history invariant over all executions of the server together with its workers."
  },
  {
   "property": "C86",
   "status": "proved",
   "theorems": [
    "Verif.C86_finished",
    "Verif.C86_order",
    "Verif.Props.C86_data",
    "Verif.Props.C86_voxels"
   ],
   "note": "From C85, C15, C34 and C80."
  },
  {
   "property": "C87",
   "status": "partial",
   "theorems": [
    "Verif.C87_false",
    "Verif.Props.C87_fair_partial",
    "Verif.Props.C87_plain_partial",
    "Verif.Props.C87_stops_partial",
    "Verif.Props.C87_two_stages_partial",
    "Verif.Props.C87_voxels_partial"
   ],
   "note": "Proved if every task depends only on tasks without upstream tasks, or if tasks are served in a good order. The general statement is false (C87_false: a plain pipeline of three stages whose workers never fail hangs). OrphanExact, as in C34, is needed if blocks fail for good; without failures it holds."
  },
  {
   "property": "C88",
   "status": "proved",
   "theorems": [
    "Verif.C88_changed_not_returned",
    "Verif.C88_failure",
    "Verif.C88_loose_failure",
    "Verif.C88_loose_ready_count",
    "Verif.C88_loose_success",
    "Verif.C88_ready_count",
    "Verif.C88_success"
   ],
   "note": "C88_changed_not_returned: the docstring promises the tasks whose state changed; a permanent failure changes the states of the task and of tasks downstream and returns nothing. C88_loose_success, C88_loose_failure, C88_loose_ready_count: also for DGraph.Loose."
  },
  {
   "property": "C89",
   "status": "proved",
   "theorems": [
    "Verif.Props.C89_conflicts_in_order",
    "Verif.Props.C89_enumerates",
    "Verif.Props.C89_topological"
   ],
   "note": ""
  },
  {
   "property": "C90",
   "status": "partial",
   "theorems": [
    "Verif.C90_counters",
    "Verif.C90_false",
    "Verif.C90_loose_counters",
    "Verif.C90_prompt",
    "Verif.C90_result_partial",
    "Verif.C90_true_partial",
    "Verif.C90_uninterrupted"
   ],
   "note": "That the loop ends at once and the counters are exact is proved in general. The result is right if no block failed for good, or (True only if no block failed and all completed or were orphaned) as in C41; the general statement about the result is false as for a run that is not interrupted (C90_false). C90_loose_counters: the counters also for DGraph.Loose."
  },
  {
   "property": "C91",
   "status": "proved",
   "theorems": [
    "Verif.C91_enter",
    "Verif.C91_leave"
   ],
   "note": ""
  },
  {
   "property": "C92",
   "status": "proved",
   "theorems": [
    "Verif.C92_end",
    "Verif.C92_exceptions",
    "Verif.C92_exit",
    "Verif.C92_nothing_left",
    "Verif.C92_reports",
    "Verif.C92_survives"
   ],
   "note": ""
  },
  {
   "property": "C93",
   "status": "partial",
   "theorems": [
    "Verif.C93_acquired",
    "Verif.C93_loose_acquired",
    "Verif.C93_loose_pair",
    "Verif.C93_loose_pre_partial",
    "Verif.C93_pair",
    "Verif.C93_post_false",
    "Verif.C93_pre_false",
    "Verif.C93_pre_partial"
   ],
   "note": "False: a tuple of check functions is never called (C93_pre_false), and no check is made after a block was processed (C93_post_false). The first half is proved for single functions, and for tuples that nothing is skipped. C93_loose_acquired, C93_loose_pre_partial, C93_loose_pair: also for DGraph.Loose."
  },
  {
   "property": "C94",
   "status": "partial",
   "theorems": [
    "Verif.C94_class_false",
    "Verif.C94_default_false",
    "Verif.C94_false",
    "Verif.C94_kwonly_false",
    "Verif.C94_usual_partial",
    "Verif.C94_wrapped_false"
   ],
   "note": "False for default values, decorators with *args, class methods and keyword-only parameters (witnesses). Proved in full for functions and methods without those."
  },
  {
   "property": "C95",
   "status": "partial",
   "theorems": [
    "Verif.Props.C95_exponential",
    "Verif.Props.C95_false",
    "Verif.Props.C95_steps",
    "Verif.Props.C95_tree_partial"
   ],
   "note": "False: the upstream tasks of a task are looked at once per path, C95_exponential gives a family with 2n+2 tasks and more than 2^n steps. The exact number of steps is proved (C95_steps), and the claim if no task is required twice."
  },
  {
   "property": "C96",
   "status": "partial",
   "theorems": [
    "Verif.C96_before_workers",
    "Verif.C96_once",
    "Verif.C96_serial_false",
    "Verif.C96_serial_never"
   ],
   "note": "Proved for Server (once, and before workers are recruited). False for SerialServer, which never calls it (C96_serial_never, C96_serial_false). For Server, that no block is processed before the callback follows for blocks processed by recruited workers."
  },
  {
   "property": "C97",
   "status": "partial",
   "theorems": [
    "Verif.C97_false",
    "Verif.C97_health_false",
    "Verif.C97_lost",
    "Verif.C97_partial",
    "Verif.C97_pools",
    "Verif.C97_recruit_false",
    "Verif.C97_refined",
    "Verif.C97_refines",
    "Verif.C97_same_exception"
   ],
   "note": "False if a process cannot be started: the first recruiting is outside of the try statement (C97_recruit_false), and processes started by the same call are not stored (C97_health_false). Proved if every process can be started; C97_lost says exactly what can be left otherwise."
  },
  {
   "property": "C98",
   "status": "proved",
   "theorems": [
    "Verif.C98_bounded_wait",
    "Verif.C98_in_order",
    "Verif.C98_loose_bounded_wait",
    "Verif.C98_loose_in_order",
    "Verif.C98_loose_no_overtaking",
    "Verif.C98_loose_retry_last",
    "Verif.C98_loose_server",
    "Verif.C98_no_overtaking",
    "Verif.C98_retry_last",
    "Verif.C98_server"
   ],
   "note": "C98_loose_no_overtaking, C98_loose_retry_last, C98_loose_server, C98_loose_in_order, C98_loose_bounded_wait: also for DGraph.Loose, for blocks that are not starved."
  },
  {
   "property": "C99",
   "status": "proved",
   "theorems": [
    "Verif.C99_one_block",
    "Verif.C99_parallel",
    "Verif.C99_server_alone",
    "Verif.Props.C99_loose_parallel"
   ],
   "note": "C99_loose_parallel: the count also for DGraph.Loose."
  },
  {
   "property": "C100",
   "status": "partial",
   "theorems": [
    "Verif.C100_bars_closed",
    "Verif.C100_false",
    "Verif.C100_listed",
    "Verif.C100_loose_orphans_partial",
    "Verif.C100_loose_report",
    "Verif.C100_nothing_missing",
    "Verif.C100_orphans_partial",
    "Verif.C100_report",
    "Verif.C100_serial_failures",
    "Verif.C100_serial_partial",
    "Verif.C100_serial_skipped"
   ],
   "note": "For the server everything but the number of orphans is proved for every reachable state (C100_listed, C100_nothing_missing, C100_report); the number of orphans is too large in the situations of C22 (C100_false). The serial server leaves out tasks all of whose blocks were skipped and lists no failures (witness executions). C100_loose_report, C100_loose_orphans_partial: also for DGraph.Loose; a task with a starved block is never reported as processed."
  },
  {
   "property": "C101",
   "status": "partial",
   "theorems": [
    "Verif.C101_false_format",
    "Verif.C101_other_handlers",
    "Verif.C101_without",
    "Verif.C101_written_partial"
   ],
   "note": "Proved if the message can be formatted, handlers on terminals are StreamHandlers with the default terminator and there were not more runs than the recursion limit. C101_false_format: a message that cannot be formatted makes the call of the logger raise after a run, and not before."
  },
  {
   "property": "C102",
   "status": "partial",
   "theorems": [
    "Verif.C102_false",
    "Verif.C102_monitors_iff",
    "Verif.C102_monitors_partial",
    "Verif.C102_nested",
    "Verif.C102_statement_false"
   ],
   "note": "C102_monitors_iff gives the exact condition; C102_false: for every recursion limit."
  },
  {
   "property": "C103",
   "status": "partial",
   "theorems": [
    "Verif.C103_false",
    "Verif.C103_removed_partial"
   ],
   "note": "Proved for handlers that are not on a terminal; C103_false: for handlers on a terminal removeHandler never has an effect after a run."
  },
  {
   "property": "C104",
   "status": "partial",
   "theorems": [
    "Verif.C104_announced_partial",
    "Verif.C104_connections",
    "Verif.C104_false",
    "Verif.C104_iff",
    "Verif.C104_observer",
    "Verif.C104_recruit",
    "Verif.C104_serial_false",
    "Verif.C104_serial_partial",
    "Verif.C104_serial_raises"
   ],
   "note": "Proved if the workers for the tasks that are ready at the beginning can be started; C104_iff: exactly then. C104_false, C104_recruit: the first _recruit_workers is outside of the try statement, so if it raises nobody is told, no stream is closed and no worker is stopped. C104_serial_false: the serial server announces nothing if a process function raises."
  },
  {
   "property": "C105",
   "status": "partial",
   "theorems": [
    "Verif.C105_false",
    "Verif.C105_iff",
    "Verif.C105_lost",
    "Verif.C105_never_raises",
    "Verif.C105_once",
    "Verif.C105_order",
    "Verif.C105_resume_partial",
    "Verif.C105_serial_false",
    "Verif.C105_serial_lost",
    "Verif.C105_serial_never_raises",
    "Verif.C105_serial_order",
    "Verif.C105_serial_resume_partial",
    "Verif.C105_serial_stop",
    "Verif.C105_stop"
   ],
   "note": "Order, at-most-once completion, absence of exceptions and meaning of stopping are proved for every series of runs (C105_order, C105_once, C105_never_raises, C105_stop). That the new run can come to its end is proved if no block is out at the interruption, and false otherwise (C105_iff, C105_lost: the block is never sent or taken back again, nothing downstream of it is ever sent, and no later run with the scheduler stops). C105_serial_lost: the same for a block whose process function raised in the serial server, which then returns normally (C105_serial_false). Interrupted between two passes of its loop, the serial server can be resumed: C105_serial_order, C105_serial_never_raises, C105_serial_stop, C105_serial_resume_partial."
  },
  {
   "property": "C106",
   "status": "proved",
   "theorems": [
    "Verif.C106_sharp",
    "Verif.Props.C106_cluster",
    "Verif.Props.C106_counts",
    "Verif.Props.C106_finish",
    "Verif.Props.C106_result",
    "Verif.Props.C106_serial",
    "Verif.Props.C106_serial_finished",
    "Verif.Props.C106_shutdown",
    "Verif.Props.C106_stop",
    "Verif.Props.C106_two",
    "Verif.Props.C106_workers"
   ],
   "note": "C106_two is the geometric part: the criterion speaks about the ROIs of the tasks only and bounds the direct upstream blocks of every block by two; the other theorems draw the consequences for scheduler, serial server, server and cluster without the hypothesis on orphans that the theorems of C22, C34, C35, C53, C56, C70 and C87 need. C106_sharp: reading one voxel more than the criterion allows already gives three upstream blocks."
  },
  {
   "property": "C107",
   "status": "partial",
   "theorems": [
    "Verif.Props.C107_false",
    "Verif.Props.C107_false_closed",
    "Verif.Props.C107_no_logdir",
    "Verif.Props.C107_no_stdout",
    "Verif.Props.C107_redirect_partial",
    "Verif.Props.C107_returns_iff"
   ],
   "note": "Proved for processes whose standard descriptors are open and whose sys.stdout and sys.stderr, if replaced, use other descriptors; there the call raises exactly if a directory or file cannot be made (C107_returns_iff). False otherwise: after sys.stdout = os.fdopen(1, \"w\", 1) what child processes print on stdout goes to the .err file (C107_false), after os.close(2) what Python code prints on stdout does (C107_false_closed). C107_no_stdout: without stdout no worker calls its spawn function, each reports an exception."
  },
  {
   "property": "C108",
   "status": "proved",
   "theorems": [
    "Verif.Props.C108_data",
    "Verif.Props.C108_deterministic",
    "Verif.Props.C108_graph",
    "Verif.Props.C108_loose_possible",
    "Verif.Props.C108_needs_conflict",
    "Verif.Props.C108_needs_restart",
    "Verif.Props.C108_possible",
    "Verif.Props.C108_resume",
    "Verif.Props.C108_resumed",
    "Verif.Props.C108_same_data"
   ],
   "note": "C108_data and C108_same_data for plain pipelines, C108_graph and C108_deterministic for arbitrary graphs and programs; C108_possible: every execution of the scheduler without accepted blocks can be carried out with data. C108_resumed: without read_write_conflict a run that starts from whatever an aborted run left behind ends with the same data. The hypotheses are needed: without read_write_conflict a task that reads its own output is not deterministic (C108_needs_conflict), a process function that is not restartable gives other results after a failure (C108_needs_restart). C108_loose_possible: also for DGraph.Loose."
  },
  {
   "property": "C109",
   "status": "partial",
   "theorems": [
    "Verif.Props.C109_as_serial_partial",
    "Verif.Props.C109_false",
    "Verif.Props.C109_open_partial",
    "Verif.Props.C109_plain_partial",
    "Verif.Props.C109_plain_straight_partial",
    "Verif.Props.C109_straight_partial"
   ],
   "note": "False (C109_false: a process whose connection was closed stores a temporary value after the block was processed by another one). Proved if processes with closed connections do nothing to the data any more (C109_open_partial, C109_plain_partial), and, whatever such processes do, for process functions that store no temporary values and do not look at what they store, if no task has read_write_conflict (C109_straight_partial, C109_plain_straight_partial). C109_as_serial_partial: the data are the same as without multiprocessing."
  },
  {
   "property": "C110",
   "status": "proved",
   "theorems": [
    "Verif.Props.C110_completed",
    "Verif.Props.C110_graph",
    "Verif.Props.C110_plain",
    "Verif.Props.C110_possible",
    "Verif.Props.C110_raised",
    "Verif.Props.C110_resumed"
   ],
   "note": "That a second run completes all blocks is a hypothesis: with skipped blocks the serial server can return early (C38)."
  },
  {
   "property": "C111",
   "status": "proved",
   "theorems": [
    "Verif.Props.C111_attempts",
    "Verif.Props.C111_attempts_graph",
    "Verif.Props.C111_graph",
    "Verif.Props.C111_marks",
    "Verif.Props.C111_needs_marks",
    "Verif.Props.C111_needs_whole_results",
    "Verif.Props.C111_not_again",
    "Verif.Props.C111_not_again_serial",
    "Verif.Props.C111_servers",
    "Verif.Props.C111_servers_graph"
   ],
   "note": "C111_servers: runs of either server with marks; C111_marks: the scheduler with any callers; C111_attempts: either server without marks.  As in C109, processes whose connections are closed are taken to do nothing to data and marks any more.  C111_needs_marks: with read_write_conflict and without marks it is false.  C111_needs_whole_results: the check function check_complete of the tutorial accepts blocks that were stored only in part."
  },
  {
   "property": "C112",
   "status": "partial",
   "theorems": [
    "Verif.Props.C112_false",
    "Verif.Props.C112_false_shrink",
    "Verif.Props.C112_kept_partial",
    "Verif.Props.C112_other_begin",
    "Verif.Props.C112_relative",
    "Verif.Props.C112_same_begin_partial"
   ],
   "note": "False if the begin of the total ROI moves (C112_false, C112_other_begin: then no id names the same place in both runs), and for fit shrink if the end moves (C112_false_shrink).  C112_relative says exactly which blocks share an id; C112_same_begin_partial and C112_kept_partial: if the total ROI only grows at its end, ids keep their places, and without shrinking their blocks."
  },
  {
   "property": "C113",
   "status": "partial",
   "theorems": [
    "Verif.Props.C113_all_partial",
    "Verif.Props.C113_bounds_partial",
    "Verif.Props.C113_false",
    "Verif.Props.C113_labels_partial"
   ],
   "note": "False if the write ROI begins before the read ROI (C113_false).  Proved for all other tasks."
  },
  {
   "property": "C114",
   "status": "partial",
   "theorems": [
    "Verif.Props.C114_chain",
    "Verif.Props.C114_false_optimal",
    "Verif.Props.C114_local",
    "Verif.Props.C114_needed",
    "Verif.Props.C114_needed_graph",
    "Verif.Props.C114_neighbours",
    "Verif.Props.C114_optimal_partial",
    "Verif.Props.C114_pipeline",
    "Verif.Props.C114_rounds",
    "Verif.Props.C114_rounds_graph",
    "Verif.Props.C114_rounds_sum",
    "Verif.Props.C114_sharp"
   ],
   "note": "The last sentence is false if the contexts on the two sides differ (C114_false_optimal: four rounds where three suffice); C114_optimal_partial proves it for symmetric context.  The rest is proved: C114_chain, C114_neighbours (2^d rounds for contexts of up to one block), C114_sharp, C114_local; for pipelines C114_pipeline, C114_rounds, C114_rounds_sum, C114_needed."
  },
  {
   "property": "C115",
   "status": "partial",
   "theorems": [
    "Verif.Props.C115_asking_false",
    "Verif.Props.C115_bad_false",
    "Verif.Props.C115_bye",
    "Verif.Props.C115_calm_false",
    "Verif.Props.C115_calm_partial",
    "Verif.Props.C115_connect",
    "Verif.Props.C115_ends",
    "Verif.Props.C115_enter",
    "Verif.Props.C115_false",
    "Verif.Props.C115_get",
    "Verif.Props.C115_leave",
    "Verif.Props.C115_leaving_false",
    "Verif.Props.C115_quiet",
    "Verif.Props.C115_send",
    "Verif.Props.C115_send_false",
    "Verif.Props.C115_waiting_false",
    "Verif.Props.C115_waits",
    "Verif.Props.C115_works"
   ],
   "note": "False: C115_false, C115_send_false (AttributeError), C115_bad_false, C115_calm_false (NotConnected raised by acquire_block while it waits).  C115_get and C115_send say exactly when a call looks as if made at once; C115_quiet: always if only messages arrive; C115_calm_partial, C115_bye: what can be raised.  That the loop of the worker ends is proved (C115_waits, C115_works, C115_ends).  C115_enter, C115_leave: without such interruptions the client is that of the other models."
  },
  {
   "property": "C116",
   "status": "partial",
   "theorems": [
    "Verif.C116_false",
    "Verif.C116_order",
    "Verif.C116_others",
    "Verif.C116_raises_iff",
    "Verif.C116_strangers",
    "Verif.C116_unknown",
    "Verif.C116_which"
   ],
   "note": "False: C116_false (a message of an unknown kind stops the server).  C116_raises_iff says exactly which messages do, C116_which what is raised.  The rest is proved: C116_others, C116_strangers, C116_order, C116_unknown.  Assumed: a block in a message with an id of this run is that block, and every task with blocks is served.  Observers are not part of this; C75_stray shows a message that makes the progress monitor raise."
  },
  {
   "property": "C117",
   "status": "partial",
   "theorems": [
    "Verif.C117_calm",
    "Verif.C117_false",
    "Verif.C117_false_half",
    "Verif.C117_get",
    "Verif.C117_lost",
    "Verif.C117_order",
    "Verif.C117_partial",
    "Verif.C117_raises_iff",
    "Verif.C117_refines",
    "Verif.C117_srun",
    "Verif.C117_two"
   ],
   "note": "False: C117_false (TCPStream.closed reads self.stream twice), C117_false_half (so does _get_message).  C117_raises_iff says exactly when something is raised, C117_partial and C117_calm that without these two windows nothing is.  The rest is proved: C117_get, C117_lost, C117_order, C117_refines, C117_srun; C117_two shows that the condition of the last two is needed."
  },
  {
   "property": "C118",
   "status": "partial",
   "theorems": [
    "Verif.C118_clean_partial",
    "Verif.C118_cost",
    "Verif.C118_exception",
    "Verif.C118_false",
    "Verif.C118_leftover",
    "Verif.C118_order",
    "Verif.C118_srun_partial",
    "Verif.C118_stopped"
   ],
   "note": "False: C118_false, C118_cost (a request that is left over makes a block fail for good).  C118_clean_partial: true if nothing is left over; C118_order, C118_srun_partial: with left over messages the second run is still one of a server with some clients; C118_leftover, C118_exception say what left over requests and exceptions do.  C118_stopped: if the event is not cleared (C63) the second run does nothing."
  },
  {
   "property": "C119",
   "status": "partial",
   "theorems": [
    "Verif.Props.C119_false",
    "Verif.Props.C119_false_displaced",
    "Verif.Props.C119_false_raises",
    "Verif.Props.C119_false_retry",
    "Verif.Props.C119_false_stall",
    "Verif.Props.C119_identity",
    "Verif.Props.C119_level_raises",
    "Verif.Props.C119_offsets",
    "Verif.Props.C119_raises",
    "Verif.Props.C119_retry",
    "Verif.Props.C119_run_partial",
    "Verif.Props.C119_shapes_partial",
    "Verif.Props.C119_unseen_partial"
   ],
   "note": "The first sentence is false: C119_false, C119_false_retry, C119_false_raises, C119_false_displaced, C119_false_stall; C119_raises says for which offsets of the read ROI giving back raises, C119_retry that a block is tried again as it was sent back.  Proved: the second sentence (C119_identity), and for changes that the dependency graph does not see all but the ROIs of what is tried again (C119_run_partial, C119_unseen_partial; C119_offsets and C119_shapes_partial say which these are).  Missing: a characterisation of what happens after changes of the write offset."
  },
  {
   "property": "C120",
   "status": "partial",
   "theorems": [
    "Verif.C120_arrives",
    "Verif.C120_counted",
    "Verif.C120_ends",
    "Verif.C120_false",
    "Verif.C120_false_report",
    "Verif.C120_false_silent",
    "Verif.C120_leaves",
    "Verif.C120_mute",
    "Verif.C120_mute_report",
    "Verif.C120_not_over_partial",
    "Verif.C120_outcome",
    "Verif.C120_partial",
    "Verif.C120_sent",
    "Verif.C120_stays"
   ],
   "note": "False for exceptions that cannot be unpickled, the run of all tasks ends with the exception of pickle.loads (C120_false); and for exceptions that cannot be pickled, the attempt is counted but nobody is told (C120_false_silent, C120_false_report).  C120_outcome says what happens in each case, C120_partial is the claim for exceptions that can be pickled and unpickled.  C120_sent, C120_arrives, C120_counted and C120_ends are its steps, with other streams active at the same time; C120_stays says that the block of a client whose exception could not be read stays with it; C120_not_over_partial that then the server cannot end regularly, under the hypotheses of C34; C120_mute and C120_mute_report say what is lost if no exception can be pickled.  Missing: what decides whether an exception can be pickled. C120_leaves: a client that disconnects regularly is not noticed by the event loop."
  },
  {
   "property": "C121",
   "status": "proved",
   "theorems": [
    "Verif.Props.C121_degrees",
    "Verif.Props.C121_failure",
    "Verif.Props.C121_loose_failure",
    "Verif.Props.C121_loose_success",
    "Verif.Props.C121_orphan_counts",
    "Verif.Props.C121_pipeline",
    "Verif.Props.C121_runs",
    "Verif.Props.C121_same",
    "Verif.Props.C121_single",
    "Verif.Props.C121_success",
    "Verif.Props.C121_total"
   ],
   "note": "C121_total bounds the calls of upstream and downstream over a whole run by the number of blocks times 3+2D+2U(1+D), for at most U direct upstream and D direct downstream blocks per block; C121_degrees bounds U and D for plain pipelines by 2^d and the shapes of blocks, so C121_pipeline and C121_single have no total ROI in the constant.  C121_success and C121_failure bound a single release; C121_orphan_counts says that a block is reported as an orphan at most once per direct upstream block, which the bound rests on (C22 is false: it can be more than once).  C121_same and C121_runs say that counting changes nothing.  For consistent graphs (OK); not counted: hashing of blocks, and the work inside upstream and downstream, which is bounded by the length of their results. C121_loose_success, C121_loose_failure: the bounds for one release also for DGraph.Loose."
  },
  {
   "property": "C122",
   "status": "partial",
   "theorems": [
    "Verif.Props.C122_false",
    "Verif.Props.C122_false_serial",
    "Verif.Props.C122_loose_pop",
    "Verif.Props.C122_ok",
    "Verif.Props.C122_order_partial",
    "Verif.Props.C122_pipeline",
    "Verif.Props.C122_pipeline_serial",
    "Verif.Props.C122_pipeline_server",
    "Verif.Props.C122_pop",
    "Verif.Props.C122_pop_server",
    "Verif.Props.C122_serial_partial",
    "Verif.Props.C122_server_partial",
    "Verif.Props.C122_single"
   ],
   "note": "C122_false: in a plain pipeline of five tasks with one block each, of which one requires another both directly and through a third one, the same messages make the server stop with one order of a set and never stop with the other.  True: what is popped does not matter (C122_pop, C122_pop_server); the lists do not matter as long as they keep the order of blocks of which one depends on the other (C122_order_partial, C122_server_partial, C122_serial_partial), which holds for plain pipelines without such shortcuts (C122_pipeline, C122_pipeline_server, C122_pipeline_serial, C122_single).  C122_false_serial: without multiprocessing, with six tasks of three blocks, one order of a set leaves a ready block unprocessed that is processed with the other.  C122_ok: with any seed the graph is one to which the general theorems apply.  C122_loose_pop: what is popped does not matter for DGraph.Loose either."
  },
  {
   "property": "C123",
   "status": "partial",
   "theorems": [
    "Verif.C123_exactly_partial",
    "Verif.C123_false",
    "Verif.C123_hang",
    "Verif.C123_hang_start",
    "Verif.C123_many_partial"
   ],
   "note": "C123_false: an exception that cannot be pickled is dropped by the feeder thread of the error queue, and the worker exits with code 0.  C123_exactly_partial: exactly what the next iteration raises: the exception itself if it survives pickling, what unpickling raises otherwise, and nothing if it cannot be pickled or is queue.Empty.  C123_many_partial: with other failures before, even with a full queue, something that a worker handed over is raised.  C123_hang, C123_hang_start: if all workers end with exceptions that vanish, the server neither stops nor raises, and no process is started any more."
  },
  {
   "property": "C124",
   "status": "partial",
   "theorems": [
    "Verif.Props.C124_exactly_partial",
    "Verif.Props.C124_false",
    "Verif.Props.C124_int",
    "Verif.Props.C124_none",
    "Verif.Props.C124_stuck_partial"
   ],
   "note": "C124_false: with num_workers = 0 nothing is ever processed and the server does not stop.  C124_exactly_partial: the workers can finish the computation without a failure if and only if every task that has blocks has a positive number of workers (both directions for all graphs; the execution is constructed).  C124_none: a task without workers never gets any, and neither its blocks nor anything downstream of them is handed out or completes.  C124_stuck_partial: so the server does not stop, as long as orphans are counted correctly (see C22).  C124_int: a negative number is the same as 0."
  },
  {
   "property": "C125",
   "status": "partial",
   "theorems": [
    "Verif.C125_clean_partial",
    "Verif.C125_cut",
    "Verif.C125_false",
    "Verif.C125_no_workers",
    "Verif.C125_other",
    "Verif.C125_over",
    "Verif.C125_quiet",
    "Verif.C125_raises",
    "Verif.C125_same",
    "Verif.C125_start",
    "Verif.C125_start_iff"
   ],
   "note": "C125_false: the callback of a task that is ready at the start raises; the observers are not told and streams stay open.  C125_cut: the server does what it does without exceptions up to the first callback that raises, and stops there with its exception (all graphs, all executions).  C125_raises, C125_no_workers: the run ends with an exception of a callback, before workers were recruited for its task.  C125_over: nothing happens afterwards.  C125_clean_partial: everything is cleaned up if the callbacks of the tasks that are ready at the start do not raise.  C125_start, C125_start_iff: otherwise nothing is cleaned up, but no process has been started either. C125_other: callbacks hide no other exception: where the run without callbacks ends with one, the run with callbacks ends with it or with the exception of a callback.  C125_quiet, C125_same: if no callback raises, the run is the one without callbacks, also in the exceptions it ends with."
  },
  {
   "property": "C126",
   "status": "partial",
   "theorems": [
    "Verif.Props.C126_cost",
    "Verif.Props.C126_false",
    "Verif.Props.C126_ignored",
    "Verif.Props.C126_lower_bound_partial"
   ],
   "note": "C126_ignored: the flag has no effect on any release.  C126_false: with the flag off, in a row of L+1 blocks in which no block has more than one direct neighbour on either side, the failure of the first block costs at least 2L questions, all other blocks are counted as orphans and none as pending, for every L.  C126_cost: whatever the flag is, at least two questions for each new orphan.  C126_lower_bound_partial: what is returned is a lower bound.  With the flag on the count is not accurate either (C22_false)."
  },
  {
   "property": "C127",
   "status": "partial",
   "theorems": [
    "Verif.Props.C127_again",
    "Verif.Props.C127_collected",
    "Verif.Props.C127_ends_iff",
    "Verif.Props.C127_false",
    "Verif.Props.C127_graph",
    "Verif.Props.C127_graph_ends",
    "Verif.Props.C127_never_raises",
    "Verif.Props.C127_order",
    "Verif.Props.C127_trees",
    "Verif.Props.C127_tuple",
    "Verif.Props.C127_unchanged"
   ],
   "note": "For lists: C127_unchanged (no list that existed before changes, at any moment), C127_never_raises, C127_collected; C127_ends_iff: the loop ends exactly if tasks do not require each other in a circle.  C127_tuple: a tuple that is not empty raises AttributeError.  C127_false: both exceptions as witnesses.  C127_trees: what justifies the trees of Model/TaskGraph, with objects the loop collects the same tasks. C127_again: with the same list a second time the same objects are collected in the same order.  C127_graph, C127_order: DependencyGraph and Scheduler, too, record of the objects what they record of the trees; C127_graph_ends: DependencyGraph is made even of tasks that require each other in a circle."
  },
  {
   "property": "C128",
   "status": "partial",
   "theorems": [
    "Verif.C128_end",
    "Verif.C128_false",
    "Verif.C128_goes_on",
    "Verif.C128_goes_on_twice",
    "Verif.C128_never_raises",
    "Verif.C128_one",
    "Verif.C128_prompt",
    "Verif.C128_result",
    "Verif.C128_returns",
    "Verif.C128_told_partial",
    "Verif.C128_true_partial",
    "Verif.C128_valid"
   ],
   "note": "C128_told_partial, C128_one: if interrupts come only while the main thread waits for the server (in one of the two calls of result.get), it takes two of them until KeyboardInterrupt leaves run_blockwise, and the server has been told to stop by then.  C128_prompt: it then ends before its next iteration.  C128_valid: at any moment of any interleaving the server is in a state of an execution without interrupts, but for the stop event, so C19, C41 and C90 apply.  C128_result: run_blockwise returns only what the server returned.  C128_goes_on, C128_goes_on_twice, C128_false: an interrupt between apply_async and the try statement, or a second one before stop_event.set(), raises without telling the server, which goes on through any execution. C128_end: the thread of the server ends only after it has been told to stop or with an exception of an iteration.  C128_true_partial: whatever the interrupts, the result is True exactly if all blocks have completed, if none failed for good (as in C90). C128_never_raises: with correct clients only KeyboardInterrupt can leave run_blockwise.  C128_returns: once an interrupt has been handled, one step of each thread ends the call."
  }
 ]
}