{"id": "C01", "title": "Blocks of a task never write the same voxel", "statement": "For every task, the write ROIs of two different blocks of that task are disjoint, for each of the three fit modes.", "quantifier": "all dimensions, all total/read/write ROIs with positive write shape, all fit modes, with and without read_write_conflict, all pairs of blocks", "why_tests_cant": "Tests fix a handful of 1-D and 2-D ROIs; disjointness must hold for every size, offset, dimension and rounding of the grid.", "anchors": ["daisy/dependency_graph.py:BlockwiseDependencyGraph.level_blocks", "daisy/dependency_graph.py:compute_level_stride", "daisy/dependency_graph.py:compute_level_offsets", "daisy/dependency_graph.py:_compute_level_block_offsets"]}
{"id": "C02", "title": "Blocks cover the total write ROI", "statement": "With fit='overhang' or 'shrink' every voxel of the total write ROI lies in the write ROI of exactly one block. With fit='valid' a voxel is covered by exactly one block iff its whole grid cell fits into the total write ROI.", "quantifier": "all dimensions, ROIs, fit modes, conflict flags, all voxels", "why_tests_cant": "Coverage is a statement about every voxel of every volume; tests only compare block counts for six configurations.", "anchors": ["daisy/dependency_graph.py:level_blocks", "daisy/dependency_graph.py:inclusion_criteria", "daisy/dependency_graph.py:shrink", "daisy/dependency_graph.py:rounding_term"]}
{"id": "C03", "title": "valid and shrink blocks stay inside the total ROI", "statement": "With fit='valid' or 'shrink', every block's read ROI is contained in total_roi and its write ROI in the total write ROI; every block has a non-empty write ROI. With 'overhang' every block's write ROI begins inside the total write ROI.", "quantifier": "all dimensions, ROIs with nonnegative context, all blocks", "why_tests_cant": "Out-of-bound reads depend on the exact boundary arithmetic for every ROI size.", "anchors": ["daisy/dependency_graph.py:shrink", "daisy/dependency_graph.py:shrink_possible", "daisy/dependency_graph.py:inclusion_criteria"]}
{"id": "C04", "title": "Shrinking preserves the context", "statement": "With fit='shrink', the difference between read and write ROI (lower and upper context) of every block equals the context of the task's block definition, as the documentation promises, and shrinking an already shrunk block changes nothing.", "quantifier": "all dimensions, ROIs, all blocks", "why_tests_cant": "The clip at the boundary must be right for every remainder of total size modulo block size.", "anchors": ["daisy/dependency_graph.py:shrink", "daisy/dependency_graph.py:root_gen"]}
{"id": "C05", "title": "Reported block counts are exact", "statement": "num_blocks equals the number of blocks that are enumerated over all levels, no block is enumerated twice, and num_roots equals the number of blocks the root generator yields, so the generator is never exhausted early and never has leftovers.", "quantifier": "all dimensions, ROIs, fits, conflict flags", "why_tests_cant": "The closed-form count must agree with the enumeration for every ROI; completion detection relies on it.", "anchors": ["daisy/dependency_graph.py:_num_level_blocks", "daisy/dependency_graph.py:num_blocks", "daisy/dependency_graph.py:num_roots", "daisy/dependency_graph.py:root_gen", "daisy/processing_queue.py:get_next"]}
{"id": "C06", "title": "Block ids are unique", "statement": "Two different blocks of one task have different block_id, and block_id equality (used for hashing, bookkeeping and returns) coincides with equality of task and ROIs.", "quantifier": "all dimensions, ROIs, fits, all pairs of blocks of a task or pipeline", "why_tests_cant": "Injectivity of the generalised Cantor number composed with the grid index is a statement about all coordinates.", "anchors": ["daisy/block.py:Block.__compute_block_id", "daisy/block.py:__eq__", "daisy/block.py:__hash__"]}
{"id": "C07", "title": "Conflicting blocks are ordered", "statement": "With read_write_conflict=True, whenever the read ROI of one block overlaps the write ROI of a different block of the same task, one of the two is (transitively) upstream of the other.", "quantifier": "all dimensions, ROIs, fits, all pairs of blocks of a task", "why_tests_cant": "The level/stride construction only records dependencies on the previous level; that the transitive closure orders every conflicting pair, including at the volume boundary and for volumes smaller than one stride, is an argument over all geometries.", "anchors": ["daisy/dependency_graph.py:compute_level_stride", "daisy/dependency_graph.py:get_conflict_offsets", "daisy/dependency_graph.py:compute_level_conflicts", "daisy/dependency_graph.py:upstream"]}
{"id": "C08", "title": "Upstream and downstream of a task are mutually inverse", "statement": "For blocks a, b of one task: b is in downstream(a) iff a is in upstream(b); both functions return only blocks of the task, without repetitions.", "quantifier": "all dimensions, ROIs, fits, conflict flags, all pairs of blocks", "why_tests_cant": "One test walks one 1-D configuration; the scheduler's bookkeeping needs it everywhere.", "anchors": ["daisy/dependency_graph.py:BlockwiseDependencyGraph.upstream", "daisy/dependency_graph.py:BlockwiseDependencyGraph.downstream", "daisy/dependency_graph.py:_level"]}
{"id": "C09", "title": "Block dependencies are acyclic", "statement": "No block is transitively upstream of itself, within a task and across a pipeline of tasks.", "quantifier": "all dimensions, ROIs, fits, all acyclic task pipelines", "why_tests_cant": "A cycle would deadlock the scheduler; absence must hold for every geometry.", "anchors": ["daisy/dependency_graph.py:upstream", "daisy/dependency_graph.py:DependencyGraph.upstream"]}
{"id": "C10", "title": "Root blocks are exactly the blocks without upstream", "statement": "The blocks handed to the scheduler as initially ready are exactly the blocks of the task that have no upstream block in the task; in particular every other block has at least one upstream block (also for volumes smaller than a stride) and will be reached.", "quantifier": "all dimensions, ROIs, fits, conflict flags", "why_tests_cant": "A non-root block with no upstream would never be scheduled; a root with upstream would be scheduled too early. Must hold for all boundary shapes.", "anchors": ["daisy/dependency_graph.py:root_gen", "daisy/dependency_graph.py:num_roots", "daisy/dependency_graph.py:upstream", "daisy/dependency_graph.py:compute_level_stride"]}
{"id": "C11", "title": "read_write_conflict=False means no dependencies", "statement": "With read_write_conflict=False no block of the task depends on another block of the task and all blocks are initially ready.", "quantifier": "all dimensions, ROIs, fits", "why_tests_cant": "Must hold for every geometry, not only for the tested 1-D one.", "anchors": ["daisy/dependency_graph.py:compute_level_conflicts", "daisy/dependency_graph.py:compute_level_stride"]}
{"id": "C12", "title": "Sub-ROI queries return exactly the overlapping blocks", "statement": "get_subgraph_blocks(roi) returns exactly the blocks of the task whose write ROI overlaps roi inside the total write ROI, each once.", "quantifier": "all dimensions, ROIs, fits, all query ROIs", "why_tests_cant": "Floor/ceil alignment has to be right for all offsets, including negative ones and ROIs that miss the volume.", "anchors": ["daisy/dependency_graph.py:get_subgraph_blocks"]}
{"id": "C13", "title": "Cross-task reads depend on the blocks that write the data", "statement": "If task B requires task A, then every block of A whose write ROI overlaps the read ROI of a block b of B is an upstream block of b.", "quantifier": "all pipelines, all ROIs, fits, pairs of blocks", "why_tests_cant": "A missed dependency is a silent data race for some geometry.", "anchors": ["daisy/dependency_graph.py:DependencyGraph.upstream", "daisy/dependency_graph.py:get_subgraph_blocks"]}
{"id": "C14", "title": "Cross-task upstream and downstream are mutually inverse", "statement": "If task B requires task A, then a block b of B is in downstream(a) of a block a of A iff a is in upstream(b).", "quantifier": "all pipelines, all ROIs incl. asymmetric context, all fits, pairs of blocks", "why_tests_cant": "The downstream direction is computed from a grown ROI with different arithmetic than the upstream direction; they must agree for every geometry or the pipeline hangs.", "anchors": ["daisy/dependency_graph.py:DependencyGraph.downstream", "daisy/dependency_graph.py:DependencyGraph.upstream", "daisy/dependency_graph.py:get_subgraph_blocks"]}
{"id": "C15", "title": "A block is handed out only after all its upstream blocks succeeded", "statement": "At every moment, a block returned by acquire_block has all blocks that are transitively upstream of it already completed (released with SUCCESS or skipped by the check function).", "quantifier": "all dependency graphs, all interleavings of acquire/release by any number of workers, all success/failure outcomes, all check-function answers", "why_tests_cant": "Quantifies over all schedules and failure histories.", "anchors": ["daisy/scheduler.py:Scheduler.acquire_block", "daisy/scheduler.py:release_block", "daisy/ready_surface.py:ReadySurface.mark_success"]}
{"id": "C16", "title": "No read/write races between concurrently processed blocks", "statement": "With read_write_conflict=True, at every moment, for any two different blocks of a task that are held by workers at the same time, neither one's read ROI overlaps the other's write ROI.", "quantifier": "all geometries, all schedules, failures and retries", "why_tests_cant": "Combines geometry for all ROIs with all schedules; a race only shows up under rare interleavings.", "anchors": ["daisy/task.py:Task", "daisy/scheduler.py:Scheduler", "daisy/dependency_graph.py:BlockwiseDependencyGraph"]}
{"id": "C17", "title": "A block is never processed twice at the same time or again after it succeeded", "statement": "acquire_block never returns a block that is currently held, nor one that has already succeeded, been skipped, or failed permanently.", "quantifier": "all dependency graphs, schedules and outcomes", "why_tests_cant": "Quantifies over all histories.", "anchors": ["daisy/scheduler.py:acquire_block", "daisy/scheduler.py:release_block", "daisy/processing_queue.py:ProcessingQueue"]}
{"id": "C18", "title": "Retries are bounded and granted exactly", "statement": "A block is handed out at most max_retries+1 times; a failed block is queued again iff it has failed at most max_retries times, otherwise it is counted as failed once and never handed out again.", "quantifier": "all dependency graphs, schedules, outcomes, max_retries values", "why_tests_cant": "Bound must hold on every failure history.", "anchors": ["daisy/scheduler.py:release_block", "daisy/processing_queue.py:block_retries"]}
{"id": "C19", "title": "Task state counters agree with the history", "statement": "At every moment ready_count, processing_count, completed_count, skipped_count and failed_count of each task equal the number of blocks of the task that are ready, held, completed, skipped, permanently failed, and total_block_count is the number of blocks.", "quantifier": "all dependency graphs, schedules, outcomes, check-function answers", "why_tests_cant": "Counters are updated incrementally at many places; agreement is an invariant over all histories.", "anchors": ["daisy/task_state.py:TaskState", "daisy/scheduler.py:Scheduler"]}
{"id": "C20", "title": "No block is forgotten", "statement": "Whenever no block is ready and no block is held, every block has completed, has failed permanently, or is downstream of a permanently failed block.", "quantifier": "all dependency graphs, schedules, outcomes", "why_tests_cant": "Absence of lost blocks / deadlock must hold for all schedules.", "anchors": ["daisy/ready_surface.py:mark_success", "daisy/ready_surface.py:mark_failure", "daisy/scheduler.py:release_block"]}
{"id": "C21", "title": "Orphans are exactly the descendants of permanently failed blocks", "statement": "A block is reported as orphan iff it is transitively downstream of a permanently failed block; orphans are never handed out; blocks not downstream of a failure are unaffected.", "quantifier": "all dependency graphs, schedules, outcomes, all iteration orders of the internal sets", "why_tests_cant": "The work-list search runs against an incrementally maintained boundary; must be right for every failure history.", "anchors": ["daisy/ready_surface.py:mark_failure", "daisy/scheduler.py:release_block"]}
{"id": "C22", "title": "The orphan count is exact, so completion is detected exactly", "statement": "orphaned_count of each task equals the number of orphaned blocks, hence is_done() holds exactly when every block of the task has completed, failed permanently or been orphaned.", "quantifier": "all dependency graphs, schedules, outcomes with any number of failures", "why_tests_cant": "One test fails every block of one geometry; double counting needs particular interleavings of success and failure.", "anchors": ["daisy/ready_surface.py:mark_failure", "daisy/ready_surface.py:__add_to_boundary", "daisy/task_state.py:is_done"]}
{"id": "C23", "title": "The result does not depend on the schedule", "statement": "If each block's permanent outcome is fixed, then all complete schedules (any worker interleaving, any retry pattern) end with the same set of completed, failed and orphaned blocks.", "quantifier": "all dependency graphs, all pairs of complete histories with the same per-block outcomes", "why_tests_cant": "Confluence over all interleavings.", "anchors": ["daisy/scheduler.py:Scheduler", "daisy/ready_surface.py:ReadySurface"]}
{"id": "C24", "title": "The scheduler never raises on legal use", "statement": "If workers only release blocks they hold, with status SUCCESS or FAILED, then no call of acquire_block/release_block raises (no failed assertion, KeyError, StopIteration) and every call terminates.", "quantifier": "all dependency graphs, all legal histories, all check-function answers (including raising ones)", "why_tests_cant": "Internal assertions depend on the surface being right in every reachable state.", "anchors": ["daisy/scheduler.py:acquire_block", "daisy/scheduler.py:release_block", "daisy/ready_surface.py:ReadySurface", "daisy/processing_queue.py:get_next"]}
{"id": "C25", "title": "Blocks accepted by the check function are skipped, never processed", "statement": "A block for which the task's check function returns True when it is about to be handed out is not handed out; it counts as completed and skipped, and releases its downstream blocks exactly as a processed block does. If the check function returns False or raises, the block is handed out.", "quantifier": "all graphs, schedules, check-function answers; dependency graphs whose upstream and downstream relations agree (C14)", "why_tests_cant": "The skip loop re-enters release_block; must be right for all queue states.", "anchors": ["daisy/scheduler.py:acquire_block", "daisy/scheduler.py:__precheck"]}
{"id": "C26", "title": "get_ready_tasks and acquire_block agree", "statement": "A task is listed by get_ready_tasks iff it has a block that could be handed out; acquire_block returns None only if at return the task has no ready block (ready_count == 0, as the server asserts).", "quantifier": "all graphs, reachable states; dependency graphs whose upstream and downstream relations agree (C14)", "why_tests_cant": "The server asserts this at run time for whatever history occurred.", "anchors": ["daisy/scheduler.py:get_ready_tasks", "daisy/scheduler.py:acquire_block", "daisy/server.py:_handle_acquire_block"]}
{"id": "C27", "title": "Every block of a dependent task is eventually schedulable", "statement": "In a pipeline, a block of a dependent task whose read ROI needs no data of the upstream task's write region is still scheduled; i.e. if all outcomes are successful every block of every task completes.", "quantifier": "all pipelines and geometries", "why_tests_cant": "Depends on ROIs of both tasks; a missing case is a hang.", "anchors": ["daisy/dependency_graph.py:DependencyGraph.root_tasks", "daisy/dependency_graph.py:DependencyGraph.roots", "daisy/scheduler.py:Scheduler.__init__"]}
{"id": "C28", "title": "Finished blocks are dropped from the bookkeeping", "statement": "A completed block is retained in the ready surface only as long as one of its downstream blocks is unfinished; after a complete successful run the surface and the boundary are empty.", "quantifier": "all graphs and schedules", "why_tests_cant": "Memory growth shows only on huge graphs.", "anchors": ["daisy/ready_surface.py:ReadySurface"]}
{"id": "C29", "title": "Each block is with at most one client, and the server knows which", "statement": "At every moment each block has been sent to at most one client that has not returned it, the server's list of sent blocks equals the scheduler's set of held blocks, and no handler raises for well-formed client messages, in any order and from any stream.", "quantifier": "all message sequences from any number of clients, stream closures, delayed requests", "why_tests_cant": "Race conditions between returns, failures, lost connections and new requests.", "anchors": ["daisy/server.py:Server", "daisy/block_bookkeeper.py:BlockBookkeeper"]}
{"id": "C30", "title": "Stale, duplicate and foreign returns are ignored", "statement": "A release or failure message for a block from a client that does not currently hold that block changes neither the scheduler's state nor the sent list.", "quantifier": "all server states and messages", "why_tests_cant": "Requires adversarial interleavings of lost-block detection with late messages.", "anchors": ["daisy/block_bookkeeper.py:is_valid_return", "daisy/server.py:_safe_release_block"]}
{"id": "C31", "title": "A failed attempt is counted once", "statement": "When user code raises, the client sends both a failure message and a release message; the server counts exactly one failed attempt, whatever other messages are interleaved between the two.", "quantifier": "all server states, all interleavings of other clients' messages between the two messages; dependency graphs whose upstream and downstream relations agree (C14)", "why_tests_cant": "Needs the re-sent block to be handed to another client between the two messages.", "anchors": ["daisy/client.py:acquire_block", "daisy/server.py:_handle_client_exception", "daisy/block_bookkeeper.py:is_valid_return"]}
{"id": "C32", "title": "Lost blocks are returned to the scheduler", "statement": "After the lost-block check, no block is registered with a client whose stream is closed, and each such block has been released as failed exactly once (so it is retried or counted as failed).", "quantifier": "all server states, all sets of closed streams; dependency graphs whose upstream and downstream relations agree (C14)", "why_tests_cant": "Crash points of workers are arbitrary.", "anchors": ["daisy/block_bookkeeper.py:get_lost_blocks", "daisy/server.py:_check_for_lost_blocks"]}
{"id": "C33", "title": "Lost-block detection works when a block is both timed out and disconnected", "statement": "get_lost_blocks returns every block whose stream closed or whose processing time exceeded the timeout, once, and removes exactly these from the sent list, without raising.", "quantifier": "all sent lists, closed streams, clock values and timeouts", "why_tests_cant": "The combination of both conditions for one block is a rare timing.", "anchors": ["daisy/block_bookkeeper.py:get_lost_blocks"]}
{"id": "C34", "title": "The server stops exactly when all tasks are done", "statement": "After handling any message the stop event is set iff every task's state is done; every finished task is announced exactly once.", "quantifier": "all message histories", "why_tests_cant": "Quantifies over all histories.", "anchors": ["daisy/server.py:_check_all_tasks_completed", "daisy/server.py:_event_loop"]}
{"id": "C35", "title": "Workers are shut down only when nothing is left to wait for", "statement": "A client is told to shut down only when its task has no ready and no pending blocks; otherwise it gets a block or its request is kept and answered later; no request is dropped.", "quantifier": "all server states and messages", "why_tests_cant": "Depends on counter accuracy in all reachable states.", "anchors": ["daisy/server.py:_handle_acquire_block", "daisy/task_state.py:pending_count"]}
{"id": "C36", "title": "Task.timeout is honoured", "statement": "If a worker holds a block longer than the task's timeout, the block is taken back and retried.", "quantifier": "all tasks with a timeout, all server histories", "why_tests_cant": "Timing dependent.", "anchors": ["daisy/task.py:timeout", "daisy/server.py:run_blockwise", "daisy/block_bookkeeper.py:BlockBookkeeper.__init__"]}
{"id": "C37", "title": "Serial execution processes every block once, in dependency order", "statement": "run_blockwise(..., multiprocessing=False) with process functions that never mark a block failed and no check functions calls the process function exactly once for every block of every task, each after all its upstream blocks, and then returns with all tasks done.", "quantifier": "all pipelines/graphs", "why_tests_cant": "Must hold for all graphs and orders.", "anchors": ["daisy/serial_server.py:SerialServer.run_blockwise"]}
{"id": "C38", "title": "Serial execution resumes a partially completed pipeline", "statement": "With check functions, serial execution still completes every block of every task: blocks accepted by the check function are skipped and all others are processed.", "quantifier": "all pipelines, all check-function answers", "why_tests_cant": "Needs particular patterns of already-completed blocks.", "anchors": ["daisy/serial_server.py:SerialServer.run_blockwise", "daisy/scheduler.py:acquire_block"]}
{"id": "C39", "title": "Serial execution retries failed blocks", "statement": "In serial execution a block whose first attempt is marked FAILED and whose retry finishes without marking it FAILED is counted as completed.", "quantifier": "all graphs, failure patterns", "why_tests_cant": "Depends on the history of the block object's status.", "anchors": ["daisy/serial_server.py:SerialServer.run_blockwise", "daisy/scheduler.py:release_block"]}
{"id": "C40", "title": "run_blockwise schedules each required task exactly once", "statement": "The task list that run_blockwise executes contains every task that is given or transitively required, each task id exactly once.", "quantifier": "all finite acyclic task structures, including shared upstream tasks", "why_tests_cant": "Quantifies over all task graphs.", "anchors": ["daisy/convenience.py:run_blockwise"]}
{"id": "C41", "title": "run_blockwise returns True iff all blocks were processed successfully", "statement": "The multiprocessing run_blockwise returns True if all blocks in the given tasks were successfully run, else False.", "quantifier": "all runs", "why_tests_cant": "Depends on failure histories.", "anchors": ["daisy/convenience.py:_run_blockwise", "daisy/task_state.py:is_done"]}
{"id": "C42", "title": "Worker pool size is controlled exactly", "statement": "set_num_workers(n) leaves exactly n workers in the pool; when shrinking, the youngest workers are terminated and the others are untouched; worker ids are never reused.", "quantifier": "all pool states and n", "why_tests_cant": "All sequences of pool operations.", "anchors": ["daisy/worker_pool.py:WorkerPool.set_num_workers", "daisy/worker_pool.py:_stop_workers", "daisy/worker.py:get_next_id"]}
{"id": "C43", "title": "Crashed workers are replaced one for one", "statement": "After a health check, every worker that exited with a non-zero code has been removed and replaced, workers that exited normally are not replaced, and the pool size is unchanged.", "quantifier": "all pool states, all combinations of alive/exited workers", "why_tests_cant": "All crash patterns.", "anchors": ["daisy/worker_pool.py:reap_dead_workers", "daisy/task_worker_pools.py:check_worker_health"]}
{"id": "C44", "title": "A task never has more workers than requested", "statement": "The number of workers in a task's pool never exceeds num_workers, over all recruitments, health checks, worker restarts after repeated block failures.", "quantifier": "all histories of recruitment, crashes, block-failure notifications", "why_tests_cant": "Late failure messages from removed workers are rare races.", "anchors": ["daisy/task_worker_pools.py:on_block_failure", "daisy/task_worker_pools.py:check_worker_health", "daisy/worker_pool.py:stop"]}
{"id": "C45", "title": "A lost block always finds a worker", "statement": "If a worker process ends while it holds a block that is then queued again, some worker of the task is alive or is started to process it.", "quantifier": "all worker exit patterns (any exit code)", "why_tests_cant": "Crash points and exit codes.", "anchors": ["daisy/worker_pool.py:reap_dead_workers", "daisy/worker_pool.py:set_num_workers", "daisy/server.py:_recruit_workers"]}
{"id": "C46", "title": "Every block a client acquires is released exactly once, as SUCCESS or FAILED", "statement": "However user code in the with-body ends (normally, any status assignment, any exception, interrupt), the client sends exactly one release message for the block, with status SUCCESS iff the body ended normally and left the status at PROCESSING or SUCCESS, otherwise FAILED; a failure message precedes it iff an Exception was raised.", "quantifier": "all user-code outcomes", "why_tests_cant": "All ways of leaving the with-body.", "anchors": ["daisy/client.py:Client.acquire_block"]}
{"id": "C47", "title": "Message framing is lossless under any segmentation", "statement": "Any sequence of messages written to a stream is received as the same sequence, however TCP splits or merges the bytes; messages of 2^32 bytes or more are rejected at the sender, never truncated.", "quantifier": "all message sequences, all segmentations", "why_tests_cant": "All chunk boundaries and sizes.", "anchors": ["daisy/tcp/tcp_stream.py:_send_message", "daisy/tcp/tcp_stream.py:_get_message"]}
{"id": "C48", "title": "The worker context survives the environment variable", "statement": "A context written to the environment by the server is read back by the worker with the same keys and values (as strings), for all hostnames, task ids and log directories.", "quantifier": "all key/value strings", "why_tests_cant": "Separator characters in any field.", "anchors": ["daisy/context.py:Context.to_env", "daisy/context.py:Context.from_env", "daisy/context.py:__setitem__"]}
{"id": "C49", "title": "ROI grid expansion is the smallest aligned cover", "statement": "expand_write_roi_to_grid and expand_roi_to_grid return an ROI that contains the given ROI, is aligned to the write grid, and is contained in every other aligned ROI containing the given one; expand_request_roi_to_grid returns that ROI grown by the block context.", "quantifier": "all ROIs (including negative offsets) and positive block shapes", "why_tests_cant": "Floor/ceil arithmetic on all integers.", "anchors": ["daisy/blocks.py:expand_roi_to_grid", "daisy/blocks.py:expand_write_roi_to_grid", "daisy/blocks.py:expand_request_roi_to_grid"]}
{"id": "C50", "title": "A task with no blocks is done immediately", "statement": "A task whose total ROI does not fit a single block (fit='valid') has zero blocks and is immediately done; building a scheduler for it does not raise.", "quantifier": "all ROIs smaller than a block", "why_tests_cant": "Degenerate sizes are not covered.", "anchors": ["daisy/dependency_graph.py:num_roots", "daisy/dependency_graph.py:_num_level_blocks", "daisy/dependency_graph.py:compute_level_stride", "daisy/scheduler.py:Scheduler.__init__"]}
{"id": "C51", "title": "Frozen objects accept no new attributes", "statement": "After freeze() no sequence of attribute assignments adds an attribute to a block, while existing attributes (e.g. status) stay assignable; thaw() lifts this.", "quantifier": "all sequences of attribute assignments", "why_tests_cant": "All assignment sequences.", "anchors": ["daisy/freezable.py:Freezable", "daisy/block.py:Block.__init__"]}
{"id": "C52", "title": "Progress display tracks completed blocks", "statement": "After any sequence of monitor notifications the progress bar of a task shows the completed_count of the last notified state, and the final symbol is the failure mark iff blocks failed, the orphan mark iff none failed but some are orphaned, the success mark otherwise.", "quantifier": "all notification sequences", "why_tests_cant": "All sequences of states.", "anchors": ["daisy/cl_monitor.py:CLMonitor._update_state", "daisy/cl_monitor.py:on_task_done"]}
{"id": "C53", "title": "Newly ready tasks get workers", "statement": "Whenever a message has been fully handled and no block is in flight, every task that has ready blocks has had its workers recruited, or some task with workers still has a ready block (no pipeline stalls because workers were never started).", "quantifier": "all pipelines, message histories, check-function answers", "why_tests_cant": "The stall fixed in release 1.1.1 needed a particular skip pattern.", "anchors": ["daisy/server.py:_recruit_workers", "daisy/server.py:_handle_acquire_block", "daisy/server.py:_release_block"]}
{"id": "C54", "title": "The task graph is recorded consistently", "statement": "In the dependency graph built from a task list, every given or transitively required task is recorded once, B is recorded downstream of A iff A is recorded upstream of B iff B (or a task with its id) requires A, and the root tasks are exactly the tasks that require nothing.", "quantifier": "all finite acyclic task structures in which different tasks have different ids", "why_tests_cant": "All task structures incl. shared and repeated upstream tasks.", "anchors": ["daisy/dependency_graph.py:DependencyGraph.__add_task", "daisy/dependency_graph.py:DependencyGraph.root_tasks"]}
{"id": "C55", "title": "A delayed request is eventually answered", "statement": "If a client waits for a block of a task (its AcquireBlock request was delayed) and a block of that task becomes ready, then, also if no other client sends anything, the server answers the request.", "quantifier": "all pipelines, orders of the task list, message histories", "why_tests_cant": "Needs a three-stage pipeline in which two stages wait at the same time and the last message of the first stage makes the second ready.", "anchors": ["daisy/server.py:_get_client_message", "daisy/server.py:_handle_acquire_block", "daisy/convenience.py:run_blockwise"]}
{"id": "C56", "title": "Serial execution copes with failing blocks", "statement": "run_blockwise(..., multiprocessing=False) with process functions that may mark blocks FAILED but do not raise, and without check functions, raises no exception and returns after finitely many passes; then every block of every task has completed, has failed more often than max_retries allows, or is downstream of such a block, and every task is done.", "quantifier": "all graphs, failure patterns", "why_tests_cant": "Needs particular failure patterns on blocks with three or more upstream blocks.", "anchors": ["daisy/serial_server.py:SerialServer.run_blockwise", "daisy/scheduler.py:release_block"]}
{"id": "C57", "title": "Messages of a client reach the server in order, once", "statement": "Every message that a client's stream delivers is handed to the server's main loop exactly once and in the order in which the client sent it, whatever happens on the streams of other clients.", "quantifier": "all numbers of clients, message sequences, interleavings and segmentations", "why_tests_cant": "Interleavings of several byte streams in arbitrary pieces.", "anchors": ["daisy/tcp/tcp_server.py:TCPServer.handle_stream", "daisy/tcp/tcp_server.py:TCPServer.get_message"]}
{"id": "C58", "title": "No client can stop the server through the TCP layer", "statement": "Whatever bytes clients send and however their streams end, the TCP layer raises no exception in the main loop of the server.", "quantifier": "all byte sequences on all streams", "why_tests_cant": "Needs messages that unpickle only in the sender.", "anchors": ["daisy/tcp/tcp_stream.py:TCPStream._get_message", "daisy/tcp/tcp_server.py:TCPServer.handle_stream", "daisy/server.py:_get_client_message"]}
{"id": "C59", "title": "Failing workers are restarted at the right time", "statement": "A worker is restarted exactly when it reports a failure that makes the number of failures it has reported a multiple of max_block_failures + 1; the other workers and tasks are untouched, and a failure notification for a known task never raises.", "quantifier": "all histories of failure reports, recruitments, crashes and health checks", "why_tests_cant": "Interleavings of failures of many workers with restarts.", "anchors": ["daisy/task_worker_pools.py:TaskWorkerPools.on_block_failure"]}
{"id": "C60", "title": "The documented worker loop reports processed blocks as successful", "statement": "A worker loop written as in the documentation of Client (block.state = BlockStatus.SUCCESS after processing) releases every block that was processed without exception as SUCCESS and sends no failure message.", "quantifier": "all blocks and user code that does not raise", "why_tests_cant": "Documentation examples are not run by the tests.", "anchors": ["daisy/client.py:Client", "daisy/freezable.py:Freezable.__setattr__"]}
{"id": "C61", "title": "A worker notices calmly that the server is gone", "statement": "If the server vanishes, whenever that happens, the next acquire_block raises no exception but yields None.", "quantifier": "all moments at which the connection is lost, all message sequences before", "why_tests_cant": "The moment of the loss relative to the client's calls is a race.", "anchors": ["daisy/client.py:Client.acquire_block", "daisy/tcp/tcp_client.py:TCPClient.send_message"]}
{"id": "C64", "title": "The blocks of a task follow from its arguments", "statement": "For a task with a total ROI, a read ROI, a write ROI and a fit mode, the enumerated blocks are exactly the cells of the grid with the write shape that starts at the total ROI less the lower context and that begin (with fit='valid': lie) before the total ROI less the upper context; each has exactly one block whose write ROI is the cell (cut off for 'shrink') and whose read ROI is the write ROI plus the context. Total ROIs passed to the graph are kept, missing ones computed, inconsistent ones rejected.", "quantifier": "all dimensions, ROIs, fit modes; write ROI nonempty, total ROI with room for the context, read ROI not beginning after the write ROI and, with shrink, not ending before it", "why_tests_cant": "Tests compare a handful of geometries.", "anchors": ["daisy/dependency_graph.py:BlockwiseDependencyGraph.__init__", "daisy/dependency_graph.py:level_blocks"]}
{"id": "C65", "title": "Blocks fail only if a client was given them", "statement": "A block does not fail more often than it was sent to a client whose connection was open; in particular no block fails permanently without any client having seen it. After every iteration of the event loop no block is held by a client whose connection is closed.", "quantifier": "all graphs, configurations, message orders, disconnections, worker exits", "why_tests_cant": "Needs a client that disconnects while its request is delayed.", "anchors": ["daisy/server.py:_get_client_message", "daisy/server.py:_handle_acquire_block", "daisy/block_bookkeeper.py:get_lost_blocks"]}
{"id": "C66", "title": "A delivered SUCCESS counts", "statement": "If the SUCCESS release of the client that holds a block has arrived at the server, the next time the scheduler takes back that block it is as SUCCESS, whatever happens meanwhile (including that the client disconnects).", "quantifier": "all graphs, configurations, queue contents, later events", "why_tests_cant": "Needs the disconnection to be noticed before the queue is read.", "anchors": ["daisy/server.py:_handle_client_messages", "daisy/server.py:_check_for_lost_blocks", "daisy/tcp/tcp_server.py:get_message"]}
{"id": "C68", "title": "The event loop with its worker pools never raises unless a worker reported an exception", "statement": "Server, message queue and worker pools together: if all messages are those of correct clients and no worker process puts an exception into its error queue, no iteration of the event loop raises, whatever processes exit with whatever code, streams are closed, and blocks fail; if a worker does report an exception, the next iteration raises.", "quantifier": "all graphs, numbers of workers, executions", "why_tests_cant": "Unbounded interleavings of processes, messages and checks.", "anchors": ["daisy/server.py:_event_loop", "daisy/task_worker_pools.py", "daisy/worker_pool.py:check_for_errors"]}
{"id": "C69", "title": "Exactly the wrong messages make the server raise", "statement": "A message makes the server raise exactly if it is a block returned by its holder with a status other than SUCCESS or FAILED (RuntimeError), an exception that is not about a block, or of unknown type. Nothing of this kind is dropped silently, and a Client never sends such a release whatever the user code does to the status.", "quantifier": "all reachable server states, messages about tasks and blocks of this run, senders, bodies of the with statement; dependency graphs whose upstream and downstream relations agree (C14)", "why_tests_cant": "All states and messages.", "anchors": ["daisy/scheduler.py:release_block", "daisy/server.py:_handle_client_message", "daisy/client.py:acquire_block"]}
{"id": "C62", "title": "run_blockwise without multiprocessing tells whether all blocks succeeded", "statement": "run_blockwise(tasks, multiprocessing=False) returns a value that is true exactly if all blocks of the tasks were processed successfully (docstring of run_blockwise).", "quantifier": "all graphs, outcomes of process functions and check functions", "why_tests_cant": "Tests only look at the value of runs without failures.", "anchors": ["daisy/convenience.py:run_blockwise", "daisy/serial_server.py:run_blockwise"]}
{"id": "C63", "title": "A Server can be used again", "statement": "Calling run_blockwise a second time on the same Server object, after a run that ended normally, behaves like calling it on a new Server.", "quantifier": "all graphs, first runs, later messages", "why_tests_cant": "Tests make a new server for every run.", "anchors": ["daisy/server.py:run_blockwise", "daisy/server.py:_check_all_tasks_completed"]}
{"id": "C67", "title": "Tasks with ready blocks have running workers", "statement": "With honest workers (messages only from running processes, exit code 0 only after the server has asked for the shutdown, streams closed only after their process ended), after every iteration of the event loop every task that has a ready block and whose num_workers is positive has a running worker process, as long as nothing was skipped.", "quantifier": "all graphs, numbers of workers, executions of server, queue, pools and processes", "why_tests_cant": "Needs a crash whose disconnection is noticed later than the exit of the process.", "anchors": ["daisy/server.py:_handle_acquire_block", "daisy/server.py:_check_for_lost_blocks", "daisy/worker_pool.py:reap_dead_workers", "daisy/task_worker_pools.py:recruit_workers"]}
{"id": "C70", "title": "A run can always be finished", "statement": "From every reachable state of the server there is a continuation (clients asking for and returning blocks) after which the event loop stops, with every block completed unless it had already failed for good or was orphaned.", "quantifier": "all graphs, executions, reachable states", "why_tests_cant": "Speaks of every reachable state and the existence of a continuation; the states in which the counters are off are rare.", "anchors": ["daisy/server.py:_check_all_tasks_completed", "daisy/task_state.py:is_done", "daisy/scheduler.py:release_block"]}
{"id": "C71", "title": "Every fair execution of the server stops", "statement": "If every block that was sent out is eventually given back or its stream closed, every task with ready blocks is eventually asked for, delayed requests are eventually answered, and streams that vanished are eventually noticed, the event loop stops after finitely many iterations, with every block completed, failed for good or orphaned.", "quantifier": "all graphs, infinite executions of the server", "why_tests_cant": "A liveness claim over infinite executions.", "anchors": ["daisy/server.py:_event_loop", "daisy/server.py:_get_client_message", "daisy/server.py:_check_all_tasks_completed"]}
{"id": "C72", "title": "The port search retries and then gives up with NoFreePort", "statement": "TCPServer uses the sockets of the first successful bind among the first max_port_tries attempts; NoFreePort is raised only if all of them failed.", "quantifier": "all numbers of tries, all outcomes of the attempts to bind", "why_tests_cant": "The first attempt succeeds on a test machine, so the retry branch is never run.", "anchors": ["daisy/tcp/tcp_server.py:__init__"]}
{"id": "C73", "title": "The announced address is reachable or the loopback address", "statement": "With a given host the server announces that host; otherwise it announces the detected address iff a test connection to it worked, and the loopback address if not. Whatever fails in the test connection, every socket that was opened is closed and nothing is raised.", "quantifier": "all hosts, all combinations of failing socket calls other than close; a port is found at the first try", "why_tests_cant": "Depends on which of a dozen socket calls fail, which a test machine does not show.", "anchors": ["daisy/tcp/tcp_server.py:_get_address", "daisy/tcp/tcp_server.py:_validate_address"]}
{"id": "C74", "title": "Log files of workers are their own and are where the user is told", "statement": "Every worker writes to files named after its id below the log directory, two workers never share a file, and the files named in the summary of the monitor are those the worker wrote to.", "quantifier": "all worker ids, task ids, log directories", "why_tests_cant": "Ranges over all task ids; unusual ids are not tested.", "anchors": ["daisy/logging.py:get_worker_log_basename", "daisy/logging.py:redirect_stdouterr", "daisy/cl_monitor.py:on_server_exit", "daisy/worker.py"]}
{"id": "C75", "title": "The progress monitor follows the server without raising", "statement": "As long as messages come from workers of started tasks, the notifications of the server never make CLMonitor raise, and the summary of each started task lists exactly the failures reported about its blocks, in order.", "quantifier": "all graphs, executions of server, queue and worker pools, all task states; dependency graphs whose upstream and downstream relations agree (C14)", "why_tests_cant": "Ranges over all interleavings of starts, failures and requests.", "anchors": ["daisy/cl_monitor.py:on_block_failure", "daisy/cl_monitor.py:on_task_start", "daisy/server.py:_handle_client_message", "daisy/server.py:_recruit_workers"]}
{"id": "C76", "title": "A notification reaches every registered observer once", "statement": "A notification in which no callback raises is delivered exactly once to every observer that is registered from its beginning to its end, in the order of registration.", "quantifier": "all lists of observers, all callbacks that may register and unregister observers", "why_tests_cant": "No test unregisters an observer during a notification.", "anchors": ["daisy/server_observer.py:ServerObservee"]}
{"id": "C77", "title": "Every process has one IO loop and it is served", "statement": "The IO loop that IOLooper hands out is served by a thread of the current process, and all objects of a process share one loop.", "quantifier": "all histories of processes being forked, ending, creating loopers", "why_tests_cant": "Depends on forks, inherited class attributes and reuse of process ids.", "anchors": ["daisy/tcp/io_looper.py:__init__", "daisy/tcp/io_looper.py:clear"]}
{"id": "C78", "title": "redirect_stdouterr writes to <basename>.out and <basename>.err", "statement": "As documented, redirect_stdouterr(basename) opens the files <basename>.out and <basename>.err.", "quantifier": "all basenames", "why_tests_cant": "Ranges over all basenames.", "anchors": ["daisy/logging.py:redirect_stdouterr"]}
{"id": "C79", "title": "Runs of the same server do not disturb each other's workers", "statement": "When a run of a server ends no worker is left in any pool the server ever made, and failures of blocks of the current run never make the pools of earlier runs raise; no two workers in any of these pools have the same id.", "quantifier": "all sequences of runs and failures", "why_tests_cant": "Needs a server that is used twice and a worker that fails four times.", "anchors": ["daisy/server.py:run_blockwise", "daisy/server_observer.py:register_observer", "daisy/task_worker_pools.py:on_block_failure"]}
{"id": "C80", "title": "Plain pipelines are built and run correctly", "statement": "If task names are unique, block ROIs are non-empty, contained in each other and fit into the total ROI, no block hangs over, contexts of tasks with upstream tasks are symmetric, and every such task writes where an upstream task writes, then run_blockwise builds its graph and scheduler without an exception, dependencies are exactly overlaps of read and write ROIs, no block starts before what it reads is written, blocks with read_write_conflict never race, the serial run ends and writes every voxel exactly once, and with workers a run without failed blocks can always be finished and returns True only after every block has completed.", "quantifier": "all dimensions, all lists of tasks meeting the conditions on the parameters, all schedules", "why_tests_cant": "Composes tiling, linking, scheduling and serving over all pipelines; tests use a few small ones.", "anchors": ["daisy/convenience.py:run_blockwise", "daisy/dependency_graph.py:BlockwiseDependencyGraph", "daisy/dependency_graph.py:DependencyGraph", "daisy/scheduler.py", "daisy/server.py", "daisy/serial_server.py"]}
{"id": "C81", "title": "Plain pipelines with workers stop", "statement": "For tasks that meet the conditions of C80, every execution of the server in which no block fails, every block is given back and idle workers ask again stops, with every block completed and result True.", "quantifier": "all such pipelines, all infinite fair executions", "why_tests_cant": "Concerns infinite executions; a hang needs a particular interleaving of three workers.", "anchors": ["daisy/convenience.py:run_blockwise", "daisy/server.py:_event_loop", "daisy/server.py:_get_client_message"]}
{"id": "C82", "title": "A block is processed by one process at a time", "statement": "At no time are two worker processes in the process function with the same block; and in a plain pipeline two processes that work on different blocks of a task with read_write_conflict never touch each other's data.", "quantifier": "all dependency graphs, all numbers of workers, all interleavings of server, network and worker processes, all failures and retries", "why_tests_cant": "Needs every interleaving of several processes and the network; a test sees a few of them, and a lost connection at the wrong time hardly ever.", "anchors": ["daisy/client.py:Client.acquire_block", "daisy/task.py:Task._process_blocks", "daisy/server.py:Server", "daisy/block_bookkeeper.py:BlockBookkeeper", "daisy/scheduler.py:Scheduler"]}
{"id": "C83", "title": "Server and workers understand each other", "statement": "With workers that run Task._process_blocks, every message that reaches the server is a request for a task of the run or the return of a block of the run as SUCCESS or FAILED, every message that a client reads is the one it expects, no client raises 'Unexpected message', and the server never raises an exception unless a worker process reports one.", "quantifier": "all executions of the server together with any number of clients, with any failures of connections and processes; dependency graphs whose upstream and downstream relations agree (C14)", "why_tests_cant": "The types of messages are checked at run time only; an unexpected message would need a rare interleaving to show up.", "anchors": ["daisy/client.py:Client.acquire_block", "daisy/task.py:Task._process_blocks", "daisy/server.py:Server._handle_client_messages", "daisy/tcp/tcp_client.py:TCPClient", "daisy/tcp/tcp_server.py:TCPServer.handle_stream"]}
{"id": "C84", "title": "No request and no block is lost between server and workers", "statement": "As long as a worker and its connection are alive, its request for a block is at exactly one place: on its way to the server, in the server's list of delayed requests, or answered and the answer not read yet; and a block that the server has on record with the worker is on its way to it, being processed, or on its way back.", "quantifier": "all executions of the server together with any number of clients; dependency graphs whose upstream and downstream relations agree (C14)", "why_tests_cant": "An invariant of the whole distributed state, which cannot be observed in a test.", "anchors": ["daisy/client.py:Client.acquire_block", "daisy/server.py:Server._handle_acquire_block", "daisy/server.py:Server.pending_requests", "daisy/tcp/tcp_server.py:TCPServer"]}
{"id": "C85", "title": "Completed means processed", "statement": "The server counts a block as completed only if its check function accepted it, or the process function was called with it in some process and ended well (it returned and did not mark the block as failed); it counts a failure only if the process function was called with it and did not end well, or if the connection of a worker to which the block was sent was closed.", "quantifier": "all executions, all process functions, all failures; dependency graphs whose upstream and downstream relations agree (C14)", "why_tests_cant": "Quantifies over every way in which a process function can end and every interleaving with the network.", "anchors": ["daisy/client.py:Client.acquire_block", "daisy/client.py:Client.release_block", "daisy/task.py:Task._process_blocks", "daisy/server.py:Server._handle_release_block", "daisy/server.py:Server._handle_client_exception"]}
{"id": "C86", "title": "What a process reads has been written", "statement": "While a process is in the process function with a block, every block it depends on was accepted by its check function or was processed and the process function ended well before; in a plain pipeline these are all blocks of upstream tasks that write something the block reads. When the server stops and no block failed for good, every voxel that a task should write lies in exactly one block that was accepted or processed.", "quantifier": "all executions of the server together with its workers, all dependency graphs, all plain pipelines; dependency graphs whose upstream and downstream relations agree (C14)", "why_tests_cant": "The end-to-end guarantee of the library, over all pipelines, schedules and failures.", "anchors": ["daisy/convenience.py:run_blockwise", "daisy/client.py:Client.acquire_block", "daisy/task.py:Task._process_blocks", "daisy/scheduler.py:Scheduler", "daisy/dependency_graph.py:DependencyGraph"]}
{"id": "C87", "title": "Server and workers come to an end", "statement": "If worker processes go on, messages arrive, the end of a connection is noticed, workers that fail are replaced and there are moments without messages, the server stops; nobody has a block then, and every block has completed, has failed for good or is downstream of such a block. If no worker fails and no process function fails, all blocks have completed, the result is True and every voxel lies in exactly one block that was accepted or processed.", "quantifier": "all infinite fair executions of the server together with its workers, all dependency graphs", "why_tests_cant": "Termination under fairness is a statement about infinite executions; a test that hangs once in many interleavings passes nearly always.", "anchors": ["daisy/server.py:Server._event_loop", "daisy/server.py:Server._recruit_workers", "daisy/client.py:Client.acquire_block", "daisy/task.py:Task._process_blocks", "daisy/scheduler.py:Scheduler.acquire_block", "daisy/convenience.py:run_blockwise"]}
{"id": "C88", "title": "What a release returns", "statement": "release_block returns each task at most once, and exactly the tasks of which a block became ready by the release (for a temporary failure: the task of the block itself); equivalently, the tasks whose ready count was raised.", "quantifier": "all dependency graphs, all executions of the scheduler, all held blocks, both outcomes; dependency graphs whose upstream and downstream relations agree (C14)", "why_tests_cant": "Exactness over all graphs and histories; a test sees a few dictionaries.", "anchors": ["daisy/scheduler.py:Scheduler.release_block", "daisy/scheduler.py:Scheduler.__update_ready_queue"]}
{"id": "C89", "title": "Enumeration respects dependencies", "statement": "Enumerating all dependencies of a task never raises, yields every block of the task exactly once together with exactly its upstream blocks, and every block comes after all blocks it depends on; of two blocks that conflict the one yielded first is the one that runs first.", "quantifier": "all ROIs, block sizes, contexts and fit modes for which a task can be constructed and blocks may be read", "why_tests_cant": "Over all geometries in all dimensions.", "anchors": ["daisy/dependency_graph.py:BlockwiseDependencyGraph.enumerate_all_dependencies", "daisy/dependency_graph.py:BlockwiseDependencyGraph._compute_level_block_offsets"]}
{"id": "C90", "title": "Interrupting a run", "statement": "After a keyboard interrupt the server handles at most the iteration it is in and stops; the counters it returns are those of a valid execution (they are the exact numbers of blocks completed, failed, orphaned so far), and the result is True exactly if all blocks have completed.", "quantifier": "all executions of the server, all moments of the interrupt", "why_tests_cant": "An interrupt can come at any moment of any interleaving.", "anchors": ["daisy/convenience.py:run_blockwise", "daisy/server.py:Server._event_loop"]}
{"id": "C91", "title": "A worker process does what the client does", "statement": "Step by step, interleaved with everything else, a worker process does what acquire_block and release_block of the client do when seen on their own: same messages, same connection state, same block or the same error.", "quantifier": "all connection states, all events of the network while waiting, all ends of the process function", "why_tests_cant": "An agreement of two descriptions over every interleaving of network events with the client's loop.", "anchors": ["daisy/client.py:Client.acquire_block", "daisy/client.py:Client.release_block", "daisy/tcp/tcp_client.py:TCPClient.get_message"]}
{"id": "C92", "title": "How worker processes end", "statement": "A worker process whose connection does not fail ends only after the server asked it to shut down (for its own task) and after it said goodbye, or because its process function was interrupted by an exception that is not an Exception. Exceptions of the process function never end a process; with failures of the connection a process ends with an exception only of the connection or of an interrupt. A process that said goodbye leaves no block, no waiting request and no unread message behind. It reports nothing to its pool and, unless interrupted, has exit code 0.", "quantifier": "all executions of the server together with its workers, all process functions, all failures; dependency graphs whose upstream and downstream relations agree (C14)", "why_tests_cant": "Over every interleaving of network, server and process, and every way in which a process function can end.", "anchors": ["daisy/task.py:Task._process_blocks", "daisy/client.py:Client.acquire_block", "daisy/tcp/tcp_client.py:TCPClient.disconnect", "daisy/worker.py:Worker._spawn_wrapper", "daisy/server.py:Server._handle_acquire_block"]}
{"id": "C93", "title": "Check functions do what is documented", "statement": "If a check function is given, a block is skipped exactly if the check function (the first one of a tuple) accepts it before it is handed out; after a block was processed the check function (the second one of a tuple) is called, and a block that it does not accept is not counted as completed.", "quantifier": "all graphs, all executions of the scheduler, all behaviours of the check functions", "why_tests_cant": "The test suite uses one function and only looks at the check before processing; the claim is about every execution and both forms of the argument.", "anchors": ["daisy/task.py:Task.__init__", "daisy/scheduler.py:Scheduler.__precheck", "daisy/scheduler.py:Scheduler.release_block"]}
{"id": "C94", "title": "Process functions are called the way they can be called", "statement": "Task accepts a process function exactly if it can be called without arguments (it then spawns a worker itself) or with a block, and the function is then called in this way; everything else is refused with ValueError.", "quantifier": "all functions and methods, with default values, keyword-only parameters, *args, and decorators", "why_tests_cant": "There are infinitely many signatures; the tests use functions with one parameter and without parameters.", "anchors": ["daisy/task.py:Task.__init__"]}
{"id": "C95", "title": "Tasks are collected in linear time", "statement": "Collecting the tasks of a pipeline takes at most one step for each given task and each entry of the upstream tasks of the collected tasks.", "quantifier": "all lists of tasks", "why_tests_cant": "The number of steps depends on the shape of the pipeline; small pipelines cannot show how it grows.", "anchors": ["daisy/convenience.py:run_blockwise"]}
{"id": "C96", "title": "The initial callback is called once, before the workers of its task", "statement": "The init_callback_fn of a task is called exactly once if workers are recruited for the task and not at all otherwise, before they are recruited; whichever server is used, no block of a task is processed before the callback.", "quantifier": "all graphs, all executions of the server and of the serial server", "why_tests_cant": "Tasks become ready in many orders and are recruited again after each released block; the claim is about every execution.", "anchors": ["daisy/server.py:Server._recruit_workers", "daisy/serial_server.py:SerialServer.run_blockwise", "daisy/task.py:Task.__init__"]}
{"id": "C97", "title": "No worker process outlives a run", "statement": "When run_blockwise of the server is left, with an exception or without, the process of no worker that it started is still running.", "quantifier": "all tasks, all sequences of recruiting, health checks, restarts and exits of processes, all failures to start a process", "why_tests_cant": "Failures of the operating system to start a process cannot be provoked in a test suite, and the sequences of events are unbounded.", "anchors": ["daisy/worker_pool.py:WorkerPool._start_workers", "daisy/worker_pool.py:WorkerPool._stop_workers", "daisy/task_worker_pools.py:TaskWorkerPools.stop", "daisy/server.py:Server.run_blockwise", "daisy/worker.py:Worker"]}
{"id": "C98", "title": "First come, first served", "statement": "The blocks of a task are handed out or skipped in the order in which they became ready: no block overtakes a block of the same task that was ready before it, a block that failed is tried again only after all blocks of its task that were ready at that time, and a ready block waits for at most as many others as were ready when it became ready.", "quantifier": "all task graphs, all legal executions of the scheduler and of the server, all moments; dependency graphs whose upstream and downstream relations agree (C14)", "why_tests_cant": "The order matters in every interleaving of requests, returns and failures; there are infinitely many.", "anchors": ["daisy/processing_queue.py:ProcessingQueue", "daisy/scheduler.py:Scheduler.acquire_block", "daisy/scheduler.py:Scheduler.__queue_ready_block", "daisy/scheduler.py:Scheduler.release_block"]}
{"id": "C99", "title": "A client has at most one block at a time", "statement": "At no moment has the server two blocks on record with the same worker; therefore the blocks of a task that are being processed at the same time are at most as many as the workers of the task that have connected.", "quantifier": "all task graphs, all executions of server and workers, including processes that die and connections that break at any moment; dependency graphs whose upstream and downstream relations agree (C14)", "why_tests_cant": "It has to hold for every interleaving of the messages of all workers, and for every moment at which a process or a connection fails.", "anchors": ["daisy/client.py:Client.acquire_block", "daisy/server.py:Server._handle_acquire_block", "daisy/server.py:Server._handle_release_block", "daisy/server.py:Server._check_for_lost_blocks"]}
{"id": "C100", "title": "The execution summary is complete and right", "statement": "When the server exits, by itself or after an interrupt, the printed summary has an entry for every task of which a block was handed out, skipped or failed (for every task, if the server stopped by itself); the entry states the exact numbers of blocks, completed, skipped, failed and orphaned blocks, lists the reported failures in order (the first 100 and how many more there are), and says that all blocks were processed iff they were.", "quantifier": "all dependency graphs whose upstream and downstream relations agree, all executions of server and workers or of the serial server, all moments", "why_tests_cant": "The summary is printed once at the end of a run; its numbers depend on the whole history of the run.", "anchors": ["daisy/cl_monitor.py:CLMonitor.on_server_exit", "daisy/cl_monitor.py:CLMonitor.on_task_start", "daisy/cl_monitor.py:CLMonitor.on_task_done", "daisy/serial_server.py:SerialServer.run_blockwise"]}
{"id": "C101", "title": "The progress display does not change what is logged", "statement": "After any number of calls of run_blockwise, a log record is written exactly once by every handler of the root logger that wants it, with the same text and in the same order as if daisy had never been used, and the call of the logger does not raise.", "quantifier": "all lists of handlers, records, numbers of earlier runs", "why_tests_cant": "Handlers on terminals do not occur in automatic tests, and the handlers pile up over calls.", "anchors": ["daisy/cl_monitor.py:TqdmLoggingHandler", "daisy/cl_monitor.py:CLMonitor._wrap_logging_handlers"]}
{"id": "C102", "title": "Monitors can be made any number of times", "statement": "run_blockwise can be called any number of times in a process: making the progress monitor never raises, and it wraps each handler on a terminal at most once.", "quantifier": "all lists of handlers, all recursion limits, all numbers of calls", "why_tests_cant": "It takes about a thousand calls with a terminal.", "anchors": ["daisy/cl_monitor.py:CLMonitor._wrap_logging_handlers", "daisy/cl_monitor.py:TqdmLoggingHandler.__getattr__", "daisy/convenience.py:run_blockwise"]}
{"id": "C103", "title": "Logging handlers can be removed after a run", "statement": "A handler that was added to the root logger can be removed with removeHandler after any number of runs, and then writes no further record.", "quantifier": "all lists of handlers, records, numbers of earlier runs", "why_tests_cant": "As C101.", "anchors": ["daisy/cl_monitor.py:CLMonitor._wrap_logging_handlers"]}
{"id": "C104", "title": "The end of a run is announced", "statement": "However run_blockwise is left (normally, by an interrupt, by an exception), every observer is told exactly once, in the order of registration, that the server exits, and the streams of all clients are closed.", "quantifier": "all tasks, worker counts, sequences of worker events, failures to start workers, client streams, lists of observers that neither raise nor register or unregister observers; for the serial server all executions", "why_tests_cant": "Whether the announcement is reached depends on where an exception is raised.", "anchors": ["daisy/server.py:Server.run_blockwise", "daisy/tcp/tcp_server.py:TCPServer.disconnect", "daisy/tcp/tcp_stream.py:TCPStream.close", "daisy/serial_server.py:SerialServer.run_blockwise"]}
{"id": "C105", "title": "An interrupted run can be resumed with its scheduler", "statement": "If run_blockwise is interrupted at any moment and called again with the same scheduler (any number of times), the new run does not raise, keeps to the dependency order and to what completed in earlier runs, and comes to its end with every block completed that has not failed permanently and is not downstream of a failed one.", "quantifier": "all dependency graphs whose upstream and downstream relations agree, all executions, all moments of interruption, any number of resumptions; messages of clients of earlier runs may still arrive", "why_tests_cant": "Depends on which blocks are out at the moment of the interruption and on late messages of old clients.", "anchors": ["daisy/server.py:Server.run_blockwise", "daisy/block_bookkeeper.py:BlockBookkeeper", "daisy/serial_server.py:SerialServer.run_blockwise", "daisy/scheduler.py:Scheduler.release_block"]}
{"id": "C106", "title": "Thin pipelines end when they should, whatever fails", "statement": "If every task has context in one dimension only (or declares no conflicts) and no upstream task, or does not wait for its own blocks and reads at most two neighbouring blocks of one upstream task or one block of each of two upstream tasks, then no block waits for more than two blocks; therefore in every run, whatever blocks fail, orphans are counted right, a task is called done and workers are stopped only when nothing is left to do, run_blockwise without workers returns without an exception, and every fair execution with workers of a pipeline of at most two stages stops.", "quantifier": "all plain pipelines of thin tasks in any number of dimensions, all failure patterns, all interleavings, all crashes of workers", "why_tests_cant": "The ends of runs go wrong only for particular orders of several failures; that they cannot for a class of task geometries is a statement about all orders of all failures on all grids.", "anchors": ["daisy/dependency_graph.py:BlockwiseDependencyGraph.upstream", "daisy/dependency_graph.py:DependencyGraph.upstream", "daisy/ready_surface.py:ReadySurface.mark_failure", "daisy/task_state.py:TaskState.is_done", "daisy/scheduler.py:Scheduler.release_block"]}
{"id": "C107", "title": "The output of a worker goes to its log files", "statement": "After redirect_stdouterr(basename) returns, everything the process prints on stdout arrives, in order, in <basename>.out, and everything it prints on stderr in <basename>.err, whether it is printed by Python code or through the standard file descriptors (libraries, child processes); no other open file is affected.", "quantifier": "all states of the file descriptor table and of sys.stdout / sys.stderr, all names, all sequences of prints, repeated calls", "why_tests_cant": "Test runners replace sys.stdout themselves, and tests look at output that Python code prints in a process with all descriptors open.", "anchors": ["daisy/logging.py:redirect_stdouterr", "daisy/logging.py:_file_reopen", "daisy/worker.py:Worker._spawn_wrapper"]}
{"id": "C108", "title": "The data do not depend on the schedule", "statement": "In a plain pipeline whose process functions keep to the ROIs of their blocks, every voxel that a processed or accepted block should write has, at every time from then on, the value it gets when the blocks are processed one after the other in any topological order; two complete executions end with the same data, whatever the number of workers, the interleaving of their reads and writes, the order of blocks, and failures and retries.", "quantifier": "all plain pipelines; all deterministic process functions that read only the read ROI of their block in outputs of upstream tasks (and of the own task if read_write_conflict is set) and write only its write ROI, restartable where an attempt failed; check functions that accept only blocks whose results are there; all interleavings, voxel by voxel, of all blocks that are out", "why_tests_cant": "A test compares the data of a few schedules for one process function; a wrong value would show only if two blocks are processed in an unlucky order.", "anchors": ["daisy/scheduler.py:Scheduler.acquire_block", "daisy/scheduler.py:Scheduler.release_block", "daisy/dependency_graph.py:BlockwiseDependencyGraph", "daisy/dependency_graph.py:DependencyGraph", "daisy/ready_surface.py:ReadySurface", "daisy/task.py:Task.__init__"]}
{"id": "C109", "title": "The data that worker processes leave behind", "statement": "In a plain pipeline whose process functions keep to the ROIs of their blocks, when the server has stopped and no block has failed for good, the data are those of processing the blocks one after the other, whatever the worker processes, the network and the order of events did, also if connections were lost while process functions ran.", "quantifier": "all plain pipelines; all deterministic process functions that keep to their ROIs and can be started again; all executions of server, clients, network and worker processes, with the reads and writes of all process functions interleaved location by location", "why_tests_cant": "The interesting executions are those in which a connection breaks while a process function runs and its process goes on; a test would have to control the network and the timing of every write.", "anchors": ["daisy/server.py:Server._event_loop", "daisy/server.py:Server._handle_client_messages", "daisy/server.py:Server._check_for_lost_blocks", "daisy/block_bookkeeper.py:BlockBookkeeper.get_lost_blocks", "daisy/client.py:Client.acquire_block", "daisy/client.py:Client.release_block", "daisy/task.py:Task._process_blocks"]}
{"id": "C110", "title": "The data that a run without multiprocessing leaves behind", "statement": "In a plain pipeline whose process functions keep to the ROIs of their blocks, when run_blockwise(tasks, multiprocessing=False) returns, no process function has marked a block as failed and no check function has accepted one, the data are those of processing the blocks one after the other in any order that respects the dependencies.  The same holds for every such run that completes all blocks, with retries and skipped blocks, if the process functions of marked blocks can be started again.  If a process function raises an exception, after any number of reads and writes, what completed blocks have stored is right and nothing outside the blocks' write ROIs has changed; and if no task has read_write_conflict and all process functions can be started again, a second run over the same data that completes all blocks ends with the data of an uninterrupted one.", "quantifier": "all plain pipelines; all deterministic process functions that keep to their ROIs; all executions of the serial server, all points at which a process function can raise, all orders that respect the dependencies", "why_tests_cant": "The result must not depend on the order in which blocks are taken from the queues nor on the point at which a process function stops; a test sees one order and one point.", "anchors": ["daisy/serial_server.py:SerialServer.run_blockwise", "daisy/scheduler.py:Scheduler.acquire_block", "daisy/scheduler.py:Scheduler.release_block", "daisy/convenience.py:run_blockwise"]}
{"id": "C111", "title": "Interrupted computations can be resumed", "statement": "In a plain pipeline whose process functions keep to the ROIs of their blocks and can be started again: if they mark their blocks after they have stored their results and the check functions accept the marked blocks (as the tutorial recommends), then after any number of interruptions, at any points, marked blocks have their final results, and once a run has completed all blocks the data are those of processing the blocks one after the other without interruptions, whether the runs use worker processes or not; blocks that were marked when a run began are not processed again in it.  Without marks the same holds if no task has read_write_conflict and check functions accept only blocks whose results are there, whether the attempts that were given up and the last run use worker processes or not.", "quantifier": "all plain pipelines; all deterministic process functions that keep to their ROIs and can be started again; all numbers of interruptions and all points at which they happen, between any two reads or writes; all executions in between", "why_tests_cant": "The number of points at which a computation can be interrupted is the number of reads and writes of all blocks in all interleavings; a test interrupts at a few of them.", "anchors": ["daisy/scheduler.py:Scheduler.acquire_block", "daisy/scheduler.py:Scheduler.__precheck", "examples/tutorial.py:check_block", "examples/tutorial.py:check_complete"]}
{"id": "C112", "title": "Block ids survive changes of the total ROI", "statement": "If a task is run again with the same id and block ROIs but another total ROI, a block id names the same block as before.", "quantifier": "all dimensions; all pairs of tasks that differ in the total ROI; all their blocks", "why_tests_cant": "Marks by block id (as in the tutorial) are made in one run and read in another; a test that uses one total ROI never compares the ids of two.", "anchors": ["daisy/block.py:Block.__compute_block_id", "daisy/dependency_graph.py:BlockwiseDependencyGraph.level_blocks", "examples/tutorial.py:check_block"]}
{"id": "C113", "title": "Size of block numbers, and labels made from them", "statement": "The number in a block id is a natural number; for a block that is s blocks away from the begin of the total ROI (summed over the axes) it lies between the binomial coefficients C(s+d-1,d) and C(s+d,d).  Labels made as in the tutorial (number of the object, at most m, plus number of the block times m) are different for different objects of all blocks.", "quantifier": "all dimensions, all tasks, all blocks, all bounds m, all objects", "why_tests_cant": "The numbers grow with the size of the ROI and the dimension; a test looks at a few blocks of one task.", "anchors": ["daisy/block.py:Block.__compute_block_id", "examples/tutorial.py:segment_blue_objects"]}
{"id": "C114", "title": "The number of rounds does not depend on the size of the volume", "statement": "In a chain of blocks of a task of which each is upstream of the next there are at most prod_i (k_i + 1) blocks, where the context reaches k_i blocks far along axis i, whatever the total ROI; with enough workers a task is done after as many rounds, a pipeline after the sum along its longest path.  Whatever a block waits for is near.  No other distribution over rounds that keeps conflicting blocks apart needs fewer.", "quantifier": "all dimensions, ROIs, fits, conflict flags; all pipelines of plain tasks; all executions in rounds; all distributions of the blocks over rounds", "why_tests_cant": "A statement about all volumes, and about all other schedules.", "anchors": ["daisy/dependency_graph.py:BlockwiseDependencyGraph.compute_level_stride", "daisy/dependency_graph.py:BlockwiseDependencyGraph.compute_level_offsets", "daisy/dependency_graph.py:DependencyGraph.upstream", "daisy/scheduler.py:Scheduler.acquire_block"]}
{"id": "C115", "title": "The thread of the IO loop cannot get between the statements of a client", "statement": "Whatever the thread of the IO loop does between two statements of send_message and get_message of a TCP client, each call looks as if it had been made at once, before, between or after these steps; and whenever the connection is lost, acquire_block raises nothing if the connection was up when it was called, and the loop of the worker ends.", "quantifier": "all interleavings of the statements of both threads, all messages, all ways in which the connection ends", "why_tests_cant": "The windows are a few bytecodes wide.", "anchors": ["daisy/tcp/tcp_client.py:TCPClient.send_message", "daisy/tcp/tcp_client.py:TCPClient.get_message", "daisy/tcp/tcp_client.py:TCPClient.disconnect", "daisy/tcp/tcp_client.py:TCPClient._receive", "daisy/tcp/tcp_client.py:TCPClient.connect", "daisy/tcp/tcp_stream.py:TCPStream.send_message", "daisy/client.py:Client.acquire_block", "daisy/task.py:Task._process_blocks"]}
{"id": "C116", "title": "A client can do harm only to its own blocks", "statement": "Whatever messages clients send, in any order: the server does not raise; a block that a client has stays with it as long as it is connected and silent; a client that has no block and asks for none of the pipeline changes nothing; the scheduler is used as it is meant to be; and a task that is not in the pipeline is announced as done once if, and only if, some client has asked for it.", "quantifier": "all dependency graphs, all messages of all clients in all orders, all times, all closed streams", "why_tests_cant": "Clients in tests are the workers of daisy, which send what they are expected to send.", "anchors": ["daisy/server.py:Server._handle_client_message", "daisy/server.py:Server._handle_acquire_block", "daisy/server.py:Server._handle_release_block", "daisy/server.py:Server._handle_client_exception", "daisy/server.py:Server._safe_release_block", "daisy/server.py:Server._check_all_tasks_completed", "daisy/scheduler.py:Scheduler.__init__", "daisy/block_bookkeeper.py:BlockBookkeeper.is_valid_return"]}
{"id": "C117", "title": "The thread of the IO loop cannot get between the statements of the server", "statement": "Whatever the IO loop does between any two statements of the event loop: if clients send what they should, nothing is raised; get_message is as if it were done at once; a block is taken back only if its client is gone or has sent something, and it is taken back if its client was gone when the server began to look; the scheduler is used as it is meant to be; and the iterations are those of a server that looks at all streams at once, unless a client has two blocks.", "quantifier": "all dependency graphs, all interleavings of the two threads at every shared access, all messages, all losses of connections", "why_tests_cant": "The windows between two reads of an attribute are a few instructions long; no test interrupts the main thread there.", "anchors": ["daisy/tcp/tcp_server.py:TCPServer.get_message", "daisy/tcp/tcp_server.py:TCPServer.handle_stream", "daisy/tcp/tcp_server.py:TCPServer._check_for_errors", "daisy/tcp/tcp_stream.py:TCPStream.closed", "daisy/tcp/tcp_stream.py:TCPStream._get_message", "daisy/tcp/tcp_stream.py:TCPStream._send_message", "daisy/block_bookkeeper.py:BlockBookkeeper.get_lost_blocks", "daisy/server.py:Server._event_loop", "daisy/server.py:Server._get_client_message", "daisy/server.py:Server._check_for_lost_blocks"]}
{"id": "C118", "title": "What is left over from one run of a server has no effect on the next", "statement": "After run_blockwise of a Server has ended and the stop event was cleared, run_blockwise of the same object does what that of a new server with the same streams does: messages and exceptions that are left in the queues have no effect.", "quantifier": "all pairs of dependency graphs, all first runs, all left over messages, exceptions and streams, all second runs", "why_tests_cant": "Tests make a new Server for each run; what is left in the queues depends on what clients send in the last milliseconds of a run.", "anchors": ["daisy/server.py:Server.__init__", "daisy/server.py:Server.run_blockwise", "daisy/server.py:Server._event_loop", "daisy/server.py:Server._check_all_tasks_completed", "daisy/tcp/tcp_server.py:TCPServer.disconnect", "daisy/tcp/tcp_server.py:TCPServer.get_message", "daisy/tcp/tcp_stream.py:TCPStream.close"]}
{"id": "C119", "title": "User code may change the ROIs of the block it is given", "statement": "A process function may change the ROIs of its block, for example crop them: whatever it sets them to, giving the block back does not raise, only blocks of the tasks are handed out, and if nothing fails all blocks are processed. If no block is changed, it makes no difference that blocks are compared by id.", "quantifier": "all pipelines, all executions of the scheduler, all changes of the attributes of held blocks other than their ids", "why_tests_cant": "The test process functions do not change their blocks; the effect depends on which attribute is changed, by how much, and on where the block lies in the dependency graph.", "anchors": ["daisy/block.py:Block.__init__", "daisy/block.py:Block.__eq__", "daisy/server.py:Server._handle_release_block", "daisy/server.py:Server._safe_release_block", "daisy/scheduler.py:Scheduler.release_block", "daisy/ready_surface.py:ReadySurface.mark_success", "daisy/ready_surface.py:ReadySurface.mark_failure", "daisy/dependency_graph.py:BlockwiseDependencyGraph._level", "daisy/dependency_graph.py:BlockwiseDependencyGraph.upstream", "daisy/dependency_graph.py:BlockwiseDependencyGraph.downstream"]}
{"id": "C120", "title": "Whatever exception user code raises, its block fails once, this is reported, and nothing else happens", "statement": "If user code raises an Exception while it processes a block, whatever exception it is, the server counts one failed attempt of this block, tells its observers about it, and goes on with all other blocks.", "quantifier": "all dependency graphs, all executions of the server's two threads, all exceptions, whatever becomes of them when messages are pickled and unpickled", "why_tests_cant": "The tests raise exceptions of builtin classes; an exception that cannot be pickled, or whose class cannot be rebuilt from its args, takes another path through the IO loops, and what the server does then depends on the state of its queues.", "anchors": ["daisy/client.py:Client.acquire_block", "daisy/messages/block_failed.py:BlockFailed", "daisy/tcp/tcp_stream.py:TCPStream._send_message", "daisy/tcp/tcp_stream.py:TCPStream._get_message", "daisy/tcp/tcp_server.py:TCPServer.handle_stream", "daisy/tcp/tcp_server.py:TCPServer.get_message", "daisy/server.py:Server._handle_client_exception", "daisy/server.py:Server._event_loop", "daisy/task_worker_pools.py:TaskWorkerPools.on_block_failure"]}
{"id": "C121", "title": "The scheduler's work per block does not depend on the size of the volume", "statement": "Over a whole run, whatever fails, the scheduler asks the dependency graph for the neighbours of a block at most a constant number of times for each block; the constant depends on the shapes of the blocks and the number of tasks, not on the total ROI.", "quantifier": "all dependency graphs, all executions, all outcomes of blocks; in particular all plain pipelines of any number of dimensions", "why_tests_cant": "The cost shows only in volumes with very many blocks, and the costly case needs particular orders of failures in which the same block is visited again and again as an orphan.", "anchors": ["daisy/ready_surface.py:ReadySurface.mark_success", "daisy/ready_surface.py:ReadySurface.mark_failure", "daisy/ready_surface.py:ReadySurface.__add_to_boundary", "daisy/ready_surface.py:ReadySurface.__remove_from_boundary", "daisy/scheduler.py:Scheduler.release_block", "daisy/scheduler.py:Scheduler.acquire_block", "daisy/dependency_graph.py:BlockwiseDependencyGraph.upstream", "daisy/dependency_graph.py:BlockwiseDependencyGraph.downstream", "daisy/dependency_graph.py:BlockwiseDependencyGraph.get_subgraph_blocks"]}
{"id": "C122", "title": "What happens does not depend on the hash seed", "statement": "If the same messages arrive in the same order, the scheduler and the server do the same in every process, although the order in which Python iterates over sets of task ids and of blocks differs from process to process.", "quantifier": "all pipelines, all executions, all orders in which the sets of tasks and of blocks are iterated over, all choices of set.pop", "why_tests_cant": "A test runs with one hash seed, and the seed matters only in pipelines of particular shape and after particular failures.", "anchors": ["daisy/dependency_graph.py:BlockwiseDependencyGraph.upstream", "daisy/dependency_graph.py:BlockwiseDependencyGraph.downstream", "daisy/dependency_graph.py:DependencyGraph.__add_task_dependencies", "daisy/dependency_graph.py:DependencyGraph.upstream", "daisy/dependency_graph.py:DependencyGraph.downstream", "daisy/ready_surface.py:ReadySurface.mark_success", "daisy/ready_surface.py:ReadySurface.mark_failure", "daisy/scheduler.py:Scheduler.release_block"]}
{"id": "C123", "title": "An exception that ends a worker process ends the computation", "statement": "If the spawn function of a worker raises an exception, the next health check of the server raises the same exception, so that run_blockwise ends with it.", "quantifier": "all dependency graphs, all executions, all workers, all exceptions and ways in which pickling and unpickling them can go, any number of exceptions in the error queue", "why_tests_cant": "Tests raise built-in exceptions, which survive pickling; whether the computation hangs depends on the exception class and on which workers are left.", "anchors": ["daisy/worker.py:Worker._spawn_wrapper", "daisy/worker_pool.py:WorkerPool.check_for_errors", "daisy/worker_pool.py:WorkerPool.reap_dead_workers", "daisy/task_worker_pools.py:TaskWorkerPools.check_worker_health", "daisy/server.py:Server._event_loop"]}
{"id": "C124", "title": "The number of workers only limits how much runs at once", "statement": "Whatever num_workers is, the workers that the pools start can bring the computation to its end; a different number changes only how many blocks are processed at the same time.", "quantifier": "all dependency graphs, all assignments of num_workers to tasks (negative ones included), all executions in which messages about a task come from workers of that task", "why_tests_cant": "Tests use positive numbers; that a computation never ends for others is a statement about all its executions.", "anchors": ["daisy/task.py:Task.__init__", "daisy/worker_pool.py:WorkerPool.set_num_workers", "daisy/worker_pool.py:WorkerPool._stop_workers", "daisy/task_worker_pools.py:TaskWorkerPools.recruit_workers", "daisy/server.py:Server._event_loop"]}
{"id": "C125", "title": "A callback that raises ends the run properly", "statement": "If the init_callback_fn of a task raises, run_blockwise raises, no worker was recruited for that task, and the run is cleaned up as after any other exception: no worker process is left, the streams are closed, the observers are told that the server exits.", "quantifier": "all dependency graphs, all executions of the server, all choices of which callbacks raise what, all events of the worker pools, all observers that just listen", "why_tests_cant": "The tests have no callback that raises; whether it is called before or in the event loop depends on the graph and on the execution.", "anchors": ["daisy/server.py:Server._recruit_workers", "daisy/server.py:Server.run_blockwise", "daisy/task.py:Task.init_callback_fn"]}
{"id": "C126", "title": "count_all_orphans does what is documented", "statement": "With Scheduler(tasks, count_all_orphans=True) all orphans are counted accurately. With count_all_orphans=False orphaned blocks are counted as pending, the work of enumerating them is saved, and mark_failure still returns a lower bound on the number of orphans.", "quantifier": "all dependency graphs, all executions, both values of the flag, all iteration orders of the internal sets", "why_tests_cant": "No test sets the flag, and the work that a failure causes can only be compared over dependency graphs of all depths.", "anchors": ["daisy/scheduler.py:Scheduler.__init__", "daisy/scheduler.py:Scheduler.release_block", "daisy/ready_surface.py:ReadySurface.mark_failure"]}
{"id": "C127", "title": "run_blockwise collects the tasks of any sequence and changes nothing", "statement": "Given any sequence of tasks, run_blockwise collects in finitely many steps the given tasks and all tasks they need, each id once, without raising; neither the given sequence nor the upstream_tasks of any task are changed, so that the same objects can be used again.", "quantifier": "all sequences (lists and tuples), all task objects with any sharing between them and any lists of upstream tasks, at every pass of the loop", "why_tests_cant": "Tests call run_blockwise with a list of one or two tasks and do not look at the list afterwards; sharing and circles of task objects are unbounded.", "anchors": ["daisy/convenience.py:run_blockwise", "daisy/task.py:Task.__init__"]}
{"id": "C128", "title": "Interrupting a run more than once, or at another moment", "statement": "Whenever and however often the user interrupts run_blockwise, the server is told to stop by the time KeyboardInterrupt leaves run_blockwise, and ends before its next iteration; a single interrupt does not raise, and what is returned is what the server returned.", "quantifier": "all interleavings of the main thread, the thread of the server and interrupts, any number of interrupts, all executions of the server", "why_tests_cant": "An interrupt can fall between any two statements of the main thread; no test sends one.", "anchors": ["daisy/convenience.py:run_blockwise", "daisy/server.py:Server._event_loop"]}
