# Formal model of daisy's block scheduling

Source: `/repo/daisy` (funkelab/daisy, pinned commit). Language: Lean 4.33 with Mathlib.
`properties.jsonl` states the claims in English; this file says what is modelled, how
each claim is proved, and what has to be trusted. `MANIFEST.json` maps claims to theorems.

## Layout of `lean/Verif`

| directory | contents |
|---|---|
| `Py/`, `Geom/` | Python helpers (range, itertools.product, exceptions), coordinates, ROIs |
| `Model/` | the code, function by function, each definition cites file and lines |
| `Spec/` | small independent vocabulary the claims are stated in (voxels, overlap, reachability, event traces) |
| `Proofs/` | helper lemmas and invariants |
| `Props/` | the property theorems, one section per claim, with a concrete case beside each |
| `Tests/` | the tests of the repository, run on the model |

## Modelling conventions

* Coordinates are integer vectors of arbitrary dimension `d`, carried in the type. `//`, `%`
  are floor division, `/` on coordinates truncates. Unbounded (`None`) ROIs are not modelled.
* Exceptions are values (`Except PyErr`). "Does not raise" is a theorem, never built in.
* Loops without an evident bound (the orphan work list, the skip loop of `acquire_block`)
  take fuel; running out of fuel is an error value, and theorems show it is never produced,
  which is the termination claim.
* `set` iteration and `pop` order is a parameter (an oracle), so theorems hold for all orders.
* Python `int` is unbounded `Int`; counters are `Int`, so they could go negative, and that they
  do not is a consequence of the theorems.
* Concurrency: the scheduler and the server run in one thread; concurrency is the interleaving
  of client messages. A history is an arbitrary list of operations (acquire / release / messages
  / closed streams / health checks) with arbitrary check-function answers.
* Block identity: Python compares blocks by `block_id`; the model compares structurally. C06
  proves both agree on the blocks of a graph.  `Model/ById` is a second model of the ready surface and the scheduler that
  compares by id and in which `upstream` and `downstream` can raise; `C119_identity` proves that it makes no difference as
  long as user code does not change its blocks.

## Results per property

"false (witness)" means: the claim as stated in `properties.jsonl` does not hold of the code; a theorem
named `Cxx_false...` exhibits a concrete input or execution, and the theorems ending in `_partial` prove the
claim under the hypotheses named here.

| id | modelled | how proved |
|---|---|---|
| C01-C04 | `BlockwiseDependencyGraph` constructor, levels, fit, shrink | the enumerated blocks are characterised by their grid offset, then integer arithmetic per axis, for all dimensions |
| C05 | `_num_level_blocks`, `root_gen` | length of a product of ranges |
| C06 | `Block.__compute_block_id`, Cantor number | injectivity of the generalised Cantor number by induction on d; false if the write ROI starts before the read ROI (witness) |
| C07 | levels, conflicts, `upstream` | "window" argument: in any box of one stride every level has one block and consecutive levels are linked |
| C08-C11 | `upstream`, `downstream`, `_level` | arithmetic modulo the stride; acyclicity by level |
| C12-C14 | `get_subgraph_blocks`, `DependencyGraph` | exact characterisation; C12 false for far-away ROIs (`C12_exact_iff`: exactly if the origin lies strictly inside a block and the query misses the task), C13 false for overhang, C14 false for overhang and asymmetric context (witnesses) |
| C15, C17-C21, C23-C26 | `Scheduler`, `ReadySurface`, `ProcessingQueue`, `TaskState` | one inductive invariant over all histories, for every graph satisfying `DGraph.OK`; single tasks and linked pipelines satisfy it (`dgraph_OK`). C17-C21, C23, C24 are false for a pipeline with asymmetric context, which has no such graph (witness executions, `Props/Asymmetric.lean`). C19, C25, C26 in part for any graph (`Props/AnyGraph.lean`: invariant of counters and queues that does not look at links); C15 for any pipeline |
| C16 | C07 + C15 + cross-task completeness | end to end; false for asymmetric context (witness execution) |
| C22 | orphan counting | false (witness: an orphan counted twice); exact under `OrphanExact` (each block has at most one permanently failed ancestor, or does not have a completed and two lost blocks among its direct upstream blocks; in particular if no block has more than two direct upstream blocks); in general at least the number of orphans and at most the number of pairs of a failed block and an orphan (invariant `c_up`) |
| C27 | `DependencyGraph.roots` | false (two witnesses); proved for linked and fed pipelines. For linked pipelines exactly: `C27_linked_exactly`, `C27_linked_iff` (Props/Starved). The theorems of C15–C26, and those of C28, C67, C69, C88, C90, C93, C98, C99, C100, C108, C121 and C122 named `_loose_` (Props/LooseMore, Props/LooseOrder, Props/LooseReport, Props/LooseCounts, Props/LooseChecks, Props/LooseData, Props/LooseQueries), also hold for graphs in which blocks of dependent tasks lack upstream blocks (`DGraph.Loose`), by an embedding into a graph with one more block for which nobody asks (Proofs/StarvedGraph, StarvedLift, StarvedRun). So do the theorems about the servers, the workers and the messages, which assume `g.Loose`; those that say that something happens in the end (Props/ServerProgress, ServerFair, ServerAgain and what builds on them) assume `g.OK`. What the servers do with the blocks that lack upstream blocks: Props/StarvedServers |
| C28 | surface | false for leaf nodes (witness, and `C28_retained` in general); contents characterised |
| C29-C33, C36 | `Server` handlers and event loop, `BlockBookkeeper` | invariant over all executions of the event loop; C33, C36 false (witnesses; `C33_raises_iff` gives the exact condition); C29 false with asymmetric context (the server raises) |
| C34, C35, C41 | `_check_all_tasks_completed`, `_handle_acquire_block`, result | false without `OrphanExact` (witness executions), proved with it; parts that do not need it are proved without; runs in which nothing completes do not need it (`Props/AllFailServer`) |
| C37-C39, C56 | `SerialServer.run_blockwise`, one pass of the loop at a time | invariant over all passes on top of the scheduler invariant; C37 false for asymmetric pipelines, C38 and C39 false, C56 false without `OrphanExact` (witness executions) |
| C40, C54 | `convenience`, `DependencyGraph.__add_task` | induction over task trees |
| C42-C45, C59 | `WorkerPool`, `TaskWorkerPools` | invariant over all histories of pool events (recruit, exit, error report, block failure, health check, stop); C44, C45 false (witnesses) |
| C46, C60, C61 | `Client.acquire_block`, `TCPClient` | the with-statement is cut into entering, body and leaving; the network is an arbitrary list of events between the steps; the body is any outcome (status value, exception). All three false as stated (witnesses), partial theorems |
| C47, C57 | framing in `tcp_stream`, queue of `tcp_server` | the receiver is a state machine fed with arbitrary pieces; feeding is independent of the split, then induction over the messages; `C47_end` and `C57_close_noticed` say what happens when a connection breaks in the middle of a message. Pickling is a parameter (a pair of functions) |
| C58 | errors of the TCP layer in the main loop | false (witness: bytes that cannot be unpickled); proved if every message can be unpickled |
| C48 | `Context.to_env`, `from_env`, `Client` configuration | split/join lemmas on character lists; false for values with `:` or `=` (witnesses), proved exactly for values without; a client is made only of a complete context |
| C49 | `blocks.expand_*` | floor/ceiling division per axis |
| C50 | zero-block tasks | false with conflict (witness); `C50_raises_iff`: exactly then, with `IndexError` |
| C51 | `Freezable`, `Block` | case analysis; false for the private flag (witness) |
| C52 | `CLMonitor` | induction over notifications; false for skipped blocks (witnesses) |
| C53 | `_recruit_workers` | invariant over server executions with a rank on tasks; false without `OrphanExact` (witness: stall) |
| C55 | `_get_client_message` | false (witness: livelock); progress proved if upstream tasks are listed first |
| C64 | constructor, enumeration | C01-C05 from the arguments of the task instead of the attributes of the graph |
| C65, C66, C68 | `Model/System.lean`: server, message queue, closed streams and worker pools in one transition system | every execution projects to an execution of the server and to a history of the pools, then their invariants; C65, C66 and the second part of C68 false (witness executions) |
| C69 | `release_block`, `_handle_client_message`, `Client.acquire_block` | case analysis on top of the server invariant |
| C62, C63 | value returned by the serial `run_blockwise`; start of a second run on the same `Server` | both false (witnesses); what the code does instead is proved |
| C67 | the system of C65 | invariant over all executions (number of workers, last worker, recruited tasks); false in general (witness execution) |
| C70 | the server of C29 | a continuation is constructed, by induction on the number of unfinished blocks; false without `OrphanSafe` (as `OrphanExact`, with upstream blocks that can still complete; witness state: no continuation at all stops the server) |
| C71 | infinite executions of the server (`Spec/Fair.lean`) | nothing changes any more from some iteration on, then fairness gives a contradiction; false if `pending_requests` lists downstream tasks first (witness: an infinite fair execution); `Spec/Again.lean`: if clients ask again, root tasks never starve, so two stages stop in any order |
| C72, C73 | `TCPServer.__init__`, `_get_address`, `_validate_address`, with arbitrary outcomes of the socket calls (`Model/Net.lean`) | induction over the attempts, case analysis over the calls; C72 false (witness) |
| C74, C78 | `logging.py`, the part of `pathlib` it uses (`Model/Logging.lean`) | computation on path components; false for unusual names (witnesses; `C78_redirect_iff` gives the exact condition) |
| C75 | the notifications of the system of C64 fed to the monitor of C52 (`Spec/MonitorSpec.lean`) | invariant of the system: whatever is asked for or reported belongs to a started task |
| C76, C79 | `server_observer.py`; the pools of all runs of a server (`Model/Observer.lean`) | induction over the loop; both false (witnesses), the deviation is proved in general |
| C77 | `IOLooper` in a tree of processes (`Model/Net.lean`) | invariant over all histories; false if pids are reused (witness) |
| C80 | everything from `run_blockwise` to the last block, for tasks that meet conditions on their parameters only (`Spec/Plain.lean`) | the hypotheses of C13, C14, C16, C37, C41 and C70 are derived from the parameters |
| C81 | the same | false (witness); the hypotheses of C71 are derived from the parameters if upstream tasks are served first, or if there are at most two stages |
| C82 | the server, the connections and worker processes that run `Task._process_blocks` (`Model/Cluster.lean`); histories in `Spec/ClusterSpec.lean` | invariant of the conversation on every connection (`Proofs/Cluster*.lean`); false for closed connections (witness) |
| C83 | the same | the same invariant; every history is one of the server with arbitrary clients, so that the theorems about the server apply |
| C84 | the same | the same invariant |
| C85 | the same | invariant that relates messages and the log of the server to the steps of the processes in the history |
| C86 | the same, with the graph of plain pipelines | from C85 and the order of the scheduler (C15), the end of the server (C34) and C80 |
| C87 | infinite executions of the same (`Spec/ClusterFair.lean`): conditions on processes, network and operating system only | fairness of the messages (C71, C81) is derived from the invariant of the conversation: a client that holds a block gives it back, a client that gave one back asks again (`Proofs/ClusterAsk.lean`). A worker that replaces a lost one is required to come after the loss was noticed: a request that is answered in the same iteration does not count. False without the condition on stages: an infinite execution of a pipeline with three stages in which nothing fails (`Props/ClusterHang.lean`) |
| C88 | `Sched.updatedTasks`: keys of the dictionary returned by `release_block` | which blocks become ready is the specification `Ready` before and after the event; `mark_success` is already characterised (C16); counters as C20 |
| C89 | `BGraph.enumerateAll`: `enumerate_all_dependencies` over all level offsets | levels have been shown to partition the blocks (C05) and upstream blocks to be in earlier levels (C07); the enumeration goes through levels in order |
| C90 | `Server.interruptLoop`: the event loop where the stop event may be set by the interrupt between two iterations | the stop flag does not change the scheduler, so every state is one of an uninterrupted execution (C41, C20) |
| C91 | `Conn.step`, `Conn.net` (`Model/Cluster.lean`) against `Client.enter`, `Client.leave` (`Model/Client.lean`) | running the small steps until the process is no longer waiting gives the big step; induction on the network events while waiting |
| C92 | the same executions as C82 to C86, `spawnWrapper` | invariant of connections that did not fail (`Proofs/ClusterEnd.lean`): no error is stored, the connection ends only by the goodbye, a request to shut down on its way was sent by the server; the task of such a request follows from counting requests and answers (C35) |
| C93 | `Model/Task.lean`: what the argument `check_function` can be and what calling it does; executions of the scheduler with it (`Spec/TaskArgs.lean`) | every execution is one of the scheduler with the check that a call amounts to, then what `acquire_block` returns; both halves false (witness executions) |
| C94 | `Model/Task.lean`: signatures and `inspect.getfullargspec`, `Task.__init__` 171-181; which calls Python accepts is stated apart (`Spec/TaskArgs.lean`) | by cases on the parameters; false for four kinds of functions (witnesses) |
| C95 | `Model/Convenience.lean`: the loop `flattenLoop` | induction on the steps: it needs exactly as many as the unfolding of the pipeline to a tree has nodes; false (a family of pipelines with exponentially many) |
| C96 | the log of the server and of the serial server | invariant of the log by induction on the server's steps; the serial server never calls it (induction on passes; witness execution) |
| C97 | `Model/Processes.lean`: pools and workers once more, with the processes of the operating system and failing starts; every function returns the state that it leaves behind also if it raises | invariant of all pools (every running process belongs to a stored worker, except for those lost by a failing start), preserved by each loop over the pools; false with failing starts (two witness executions). Refinement in both directions between `Model/Processes` (no failing start) and `Model/WorkerPool`, also of the exceptions (`C97_refines`, `C97_refined`, `C97_same_exception`); so the running processes are those of the workers that the pools of `Model/WorkerPool` take for running (`C97_pools`) |
| C98 | the queues of `Model/Scheduler.lean` and the server that sends blocks | invariant: at any two moments, what waited at the first one, followed by what became ready since, is what was handed out or skipped in between, followed by what waits at the second one (`Proofs/Fifo.lean`) |
| C99 | `Model/Cluster.lean` | invariant of every client: at most one block, at most one request, and in the stream of its messages its block is returned before its next request (`Proofs/ClusterOne.lean`); the server alone does not ensure it (`C99_server_alone`) |
| C100 | `Model/Monitor.lean` (`report`, `onServerExit`) observing `Model/System.lean` and `Model/SerialServer.lean` | summaries exist for exactly the announced tasks (induction over notifications), announced tasks include all with a block sent or skipped (invariant of the system, `Proofs/SystemMonitor.lean`), the numbers are those of C19 and C22; the serial server announces exactly the tasks of which it calls a process function (induction over passes) |
| C101-C103 | `Model/LogHandlers.lean`, with `Logger.callHandlers`, `Handler.handle` and `removeHandler` of Python's `logging` | after `k` monitors each handler on a terminal has `k` wrappers (induction over monitors and handlers), attribute lookup through them needs `k` frames; exact condition for `RecursionError` |
| C104 | `Model/Shutdown.lean`: `Server.run_blockwise` with its `finally` clause around `Model/Processes.lean`; `Model/SerialServer.lean` | the loop with the `finally` clause does what the loop of C67 does and then tells the observers (induction over events); serial: invariant over passes |
| C105 | `Model/Resume.lean`: `run_blockwise(tasks, scheduler)` with a used scheduler; `Spec/Resume.lean`: series of runs | invariant: with the entries of the books of all earlier runs added, the state of a resumed server is as in a single run (`Proofs/Resume.lean`); the entries of earlier runs never go away; serial: a block that is out stays out (induction over passes) |
| C106 | `Spec/Thin.lean`: the criterion on ROIs of tasks; model of the graph as for C08 and C13 | `Proofs/Thin.lean`: among three congruent places within two strides two are equal; dimensions without context do not move; refining grids determine the upstream block; the rest follows from C22, C34, C35, C41, C53, C56, C70, C87 |
| C107 | `Model/Redirect.lean`: table of file descriptors, `redirect_stdouterr`, `_file_reopen`, `_spawn_wrapper`; `Spec/Redirect.lean`: where prints arrive | the table after each call as a function of the table before (`fileReopen_ok`); witness executions |
| C108 | `Spec/Data.lean`: process functions are arbitrary deterministic programs that look at and store single values; executions of the scheduler in which the programs of all blocks that are out run interleaved.  Every task has its own output; an attempt ends when its block is released (for processes that go on after their connection was closed see C82) | `Proofs/Data.lean`: invariant `DataInv` (what a done block should write is written; what nobody was handed is untouched; what is left of the program of a block that is out leads to the same result), from C15 and C19 |
| C109 | `Spec/ClusterData.lean`: the model of C81–C87 (server, network, worker processes) with data: a process that is in the process function makes steps of the program of its block, interleaved with everything else, also after the server has closed its connection; the process function ends well only if its program has come to its end | false (witness: a temporary value is stored by a process whose connection is closed); `Proofs/ClusterShared.lean` if such processes store nothing, `Proofs/ClusterCalm.lean` for programs without temporary values.  Both use `Proofs/ClusterMsg.lean` (what messages in flight say about data), the first also `Proofs/ClusterLast.lean` (a client that is sent a block has said nothing since its request) |
| C110 | `Spec/SerialData.lean`: executions of the serial server with data: a call of a process function runs its program to the end, or stops anywhere if it marks the block or raises | `Proofs/SerialData.lean`: every such execution is one of C108, with the block that is called as the only one that is out |
| C111 | `Spec/Restart.lean`: executions with data in which the scheduler may be lost at any time, data and marks stay; `Spec/Attempts.lean` and `Spec/Marks.lean`: runs of either server over data (and marks) that an earlier run has left behind | `Proofs/Restart.lean`: an invariant over all runs (blocks upstream of a block that was ever handed out are marked, blocks that were never handed out are untouched); `Proofs/Marks*.lean`: the same invariant between the runs of either server, over `Spec/Marks.lean`, with what the log says about check functions (`Proofs/ServerChecks.lean`); `Proofs/Attempts.lean`: worker processes store only where blocks store |
| C112 | `Block.computeId`, `BGraph.blocks` of two tasks with different total ROIs | the number determines the index along each axis; the index is relative to the begin of the total ROI; partial: false if that begin moves, and for `shrink` if the end moves |
| C113 | `Block.computeId`; the labels of `segment_blue_objects` in the tutorial | bounds of the Cantor number by binomial coefficients; injectivity; partial: false if the write ROI begins before the read ROI |
| C114 | `BGraph.levelOffsets`, `BGraph.upstream`, `Pipeline.upstream`, the scheduler | number of levels as a product over the axes; levels grow along dependencies (`chain_length`); the levels of one stride form a chain and, with symmetric context, conflict pairwise (pigeonhole); executions in rounds are built from `Run` and bounded below by legality (`Proofs/Rounds.lean`); partial: with different contexts on the two sides fewer rounds may suffice |
| C115 | `TCPClient` and `Client.acquire_block` statement by statement (`Model/TcpThreads`): the IO loop may do steps before every access of the main thread to the two queues, `TCPClient.stream` and `TCPStream.stream` | linearisation points are constructed (`first_message`, `first_closed`); invariants of the steps of `_receive`; a simulation relates uninterrupted calls to `Model/Client`; partial: false in windows that are characterised exactly |
| C116 | the event loop with arbitrary messages, `task_states` as the `defaultdict` it is (`Model/Strangers`) | refinement: without the announcements of tasks that are not in the pipeline the iteration is that of `Model/Server` (`strip_iteration`); invariant `SInv` for arbitrary messages; `ToldOnce` for unknown tasks; partial: three kinds of messages raise, which is characterised exactly |
| C117 | the event loop with steps of the IO loop at every access to the queues, `TCPStream.stream` and the state of the tornado stream (`Model/ServerThreads`) | the iteration is computed exactly (`fine_cases`); invariants `SInv` and genuine messages in the queue; steps of different streams commute (`own_first`), so `get_message` can be moved to one point; refinement of `Model/Server` if no client has two blocks; partial: two windows in which `AttributeError` is raised |
| C118 | `run_blockwise` of a `Server` object that was used before: what is made anew and what stays (`Model/ServerReuse`), on top of `Model/ServerThreads` | the invariants of C117 from an arbitrary left over state; partial: the stop event stays set, left over requests and exceptions have effects |
| C119 | ready surface and scheduler with blocks compared by id, and with any object in `release_block` (`Model/ById`) | simulation: every function takes states with the same ids to states with the same ids; partial: changes that `upstream` and `downstream` do not see |
| C120 | what becomes of the messages of a client on their way to the server, per exception (`Model/Raised`), with the client (`Model/Client`), the two threads of the server (`Model/ServerThreads`), worker pools and monitor | composition of C46, C117 and C100; steps of one stream among those of others; partial: exceptions that can be pickled and unpickled |
| C121 | ready surface and scheduler once more, counting the calls of `upstream` and `downstream` (`Model/Queries`); erasing the counter gives `Model/ReadySurface` and `Model/Scheduler` | potential: a block leaves the boundary only when one of its upstream blocks leaves the surface, so it is an orphan at most as often as it has upstream blocks; amortised over finished blocks; lengths of conflict offsets and of grid ranges |
| C122 | two graphs with the same dependencies listed in another order; `OtherSeed` says which lists a process with another hash seed can get (`Spec/Order`) | the loops of the ready surface commute on nodes that do not depend on each other, the closure computed by `mark_failure` is the set of reachable nodes, the lists are sorted by block number and in-task blocks come first; refinement of whole runs of scheduler, server and serial server; false in general, five and six tasks |
| C123 | `_spawn_wrapper` with the error queue (`Model/ErrorQueue`): what becomes of an exception that is pickled by the feeder thread and unpickled by `check_for_errors`; the whole system of server and pools | the event loop raises only what the health check raises, the health check only what was handed over; a state without processes and without messages is an invariant of all further events; false for exceptions that cannot be pickled |
| C124 | `set_num_workers` for arbitrary integers (`Model/NumWorkers`); the whole system of server and pools, with the condition that messages about a task come from workers of its pool | a task without workers: empty pool, no messages, no delayed requests and no events of its blocks are an invariant; conversely an execution in which workers take and return one block after the other is constructed for every graph; false for 0 and negative numbers |
| C125 | the whole event loop once more with callbacks that may raise, and the `try` statement of `run_blockwise` around it (`Model/Callback`); the iterations of the server and the events of the pools are not related to each other there | every step follows the step without exceptions up to the first callback that raises, composed over the loop; both loops have the same outcome, exceptions included, unless a callback raises; C96 gives that there were no workers; C104 and C97 give the clean-up; false at the start |
| C126 | the release of a block with the flag handed through to `mark_failure` (`Model/OrphanFlag`), counting questions as in C121 | induction over the loop of `mark_failure` for the lower bound on the work; a family of graphs of every depth as a witness; C21 for the lower bound on the number of orphans |
| C127 | the loop of `run_blockwise` once more, with task objects and list objects that have addresses (`Model/TaskObjects`); `__add_task` and `__init_task` with task objects (`Model/TaskObjectGraph`) | invariant of the loop; accessibility of task objects for the end of the loop; simulation with the trees of `Model/TaskGraph`, which this justifies |
| C128 | main thread and thread of the server in any order, statement by statement for the main thread, with interrupts at any moment (`Model/Interrupts`); `ThreadPool.terminate` does not end a thread that runs | invariant of the pair of threads with the number of interrupts; the server is one of an execution by induction over the events |

## Where the code and the claims disagree

Each line is backed by a `_false` theorem (or a theorem stating what the code does instead).

* Negative context: two blocks get the same id (C06).
* `get_subgraph_blocks` with a ROI outside the total write ROI can return blocks far from it (C12).
* Overhanging blocks of an upstream task are not found by a dependent block that reads only the overhang (C13,
  C14, C27).
* `downstream` of a block grows its write ROI by the lower context on the lower side, where the upper context
  would be right: with asymmetric context `upstream` and `downstream` disagree, so blocks can be handed out
  twice and races happen (C14, C16, C17).  Although no block fails and all clients are correct, the server can raise
  `AssertionError` when a second worker asks for a block (C29), `release_block` can raise `KeyError` (C24), a run can
  end with the result True although blocks were never processed (C19, C41) or hang before the dependent task starts
  (C20), depending on the order in which blocks complete (C23); orphans are not reported (C21).  All this is in
  `Props/Asymmetric.lean`; what still holds for such pipelines is in `Props/AnyGraph.lean`.
* A dependent block that reads nothing any upstream block writes is never scheduled (C27). The server then never ends, while
  the serial server returns without it. Such a block can also keep delayed requests for unrelated tasks
  from being answered (`C27_false_others`).
* A root task with `read_write_conflict` smaller than one block makes the scheduler raise `IndexError` (C50).
* A block with three or more direct upstream blocks can be counted as orphan twice. Then `is_done` stays
  False forever (C22), becomes True too early so that the server stops while a client has a block (C34), a
  client is shut down while a block waits (C35), or a task never gets workers (C53).  For a single task of 4 × 4
  blocks with a context of one block, three failures suffice to make the server stop too early or hang forever
  (`Props/PlainFailures.lean`, which shows the counterexamples of C22, C28, C34, C35, C38, C39, C41, C53, C56 and C70
  for tasks and pipelines that daisy builds and that have no unusual feature).
* The ready surface keeps finished blocks with two leaf dependents (C28).
* A block that is both timed out and held by a closed stream makes `get_lost_blocks` raise `KeyError` (C33).
* `Task.timeout` is not used by the server (C36).
* `run_blockwise` returns True although blocks failed (C41).
* Serial execution leaves the loop when all blocks of the ready tasks were skipped, although that made blocks
  of other tasks ready (C38).
* Serial execution retries a failed block with the same object, whose status stays FAILED, so a retry never
  succeeds unless the process function resets the status (C39).
* In serial execution a task that is taken to be done too early makes `run_blockwise` return before all blocks
  were processed, or raise `KeyError` (C56).
* Delayed requests are retried only for the first task in the list that has any, and `run_blockwise` lists
  downstream tasks first: a three-stage pipeline can live-lock (C55).
* `Context` does not escape `:` and `=`: an IPv6 host makes the worker raise `ValueError`, a task id like
  `a:port=1` silently changes the port (C48).
* A message that the server cannot unpickle raises in its main loop (C58).
* A block failure that a worker reports after it was replaced makes `on_block_failure` start an additional
  worker (C44).
* A worker that exits with code 0 while it holds a block is not replaced, although the block is queued again: the
  run never ends (C45).
* A with-body that is interrupted after it has set the status to SUCCESS releases the block as SUCCESS (C46).
* The progress bar does not see skipped blocks; a task whose blocks were all skipped has no bar (C52).
* The loop in the docstring of `Client` assigns `block.state`, which `Freezable` rejects: every block fails (C60).
* The delayed request of a client that has disconnected is answered: the block goes nowhere, and counts as failed
  (with `max_retries=0` permanently) although no client ever saw it (C65).
* A closed stream is noticed, and its block marked as failed, before the SUCCESS message that the client sent earlier
  is read from the queue (C66).
* `run_blockwise(tasks, multiprocessing=False)` returns a dict, which is true even if every block failed (C62).
* A second `run_blockwise` on the same `Server` handles no message, because the stop event stays set (C63).
* A worker is killed while it has a block and is replaced before its stream is known to be closed. The new worker asks
  for a block, there is none ready or pending, so it is sent home; then the lost block is queued again, but the pool
  counts the worker that went home: the run never ends (C67).
* Once an orphan was counted twice, the server cannot be stopped any more by anything its clients do (C70).
* A three-stage pipeline can run forever although every client behaves and nothing fails (C71, sharper than C55).
* `TCPServer.__init__` reads `self.max_port_tries`, which is never set: a failed first attempt to bind raises
  `AttributeError` instead of trying the next port (C72).
* Log files of a task whose id starts with `/` or contains `..` are written outside of the log directory (C74).
* `redirect_stdouterr("run.1")` and `redirect_stdouterr("run.2")` write to the same file `run.out` (C78).
* An observer that unregisters itself in a callback makes the server skip the next observer (C76).
* The worker pools of earlier runs of a server stay registered as observers: after four failures of one worker they
  raise `KeyError`, or start a worker that nobody stops (C79).
* A process that has the pid of a dead ancestor (pids are reused) gets an IO loop that no thread serves (C77).
* Every call of `run_blockwise` forgets the IO loop of the process (`convenience.py` 46) but does not stop it: its
  thread runs on until the process ends (C77_leaks).
* The server hands a block out again when the connection of its worker is lost, but cannot know that the worker has
  stopped working on it: a temporary value can be stored over the result of the second attempt after the run has ended
  with the result True (C109).
* A pipeline of three ordinary tasks with one worker each can hang although no block fails and every block is given
  back, because `run_blockwise` lists downstream tasks first and the server always serves the first queue (C81, C71).
* If the connection of a worker breaks while it processes a block, the server gives the block to another worker at
  once; both can be in the process function with the same block at the same time (C82).
* `release_block` documents that it returns the tasks whose state changed; after a permanent failure it returns
  nothing although counters of several tasks changed (C88).
* After a keyboard interrupt the result can be True although a block failed for good, as without interrupt (C90, C41).
* An exception that a worker reports is not raised if it is `queue.Empty`: `WorkerPool.check_for_errors` raises it inside of
  the `try` statement that catches `queue.Empty` (C68, witness execution).  The worker stays in the pool without a process.
  `TCPServer.get_message` and `TCPClient.get_message` have the same flaw; what the receive loops store there is never
  `queue.Empty`, unless unpickling a message raises it.
* `Task` documents a tuple of two check functions and a check after a block was processed.  A tuple is stored as it is;
  calling it raises `TypeError`, which `__precheck` catches, so that no block is skipped.  No check is ever made after a
  block was processed (C93, witness executions).
* `Task.__init__` tells functions of a block from functions that spawn workers by counting the entries of
  `inspect.getfullargspec(f).args`.  A function of a block with a further parameter that has a default value is refused;
  whatever a decorator with `*args` is applied to is taken for a function that spawns workers, also with
  `functools.wraps`; the same happens to class methods, whose bound parameter is not called `self` (C94).
* `run_blockwise` appends the upstream tasks of a task to its work list also if the task was seen before.  A pipeline of
  `n + 1` stages of two tasks each needs more than `2 ^ n` steps before anything is scheduled (C95).
* `init_callback_fn` is documented to be called once when the task is started.  The serial server never calls it (C96).
* If a process cannot be started, others stay behind: `Server.run_blockwise` recruits its first workers before the `try`
  statement whose `finally` stops them, and `WorkerPool._start_workers` stores workers only after all of a batch have been
  started (C97, two witness executions).
* The execution summary of the serial server has no entry for a task all of whose blocks were skipped, and never lists a
  failed block, because `SerialServer` never calls `notify_block_failure` (C100).
* Every call of `run_blockwise` wraps the logging handlers on terminals once more, because `TqdmLoggingHandler` passes on
  the attribute `stream` of the handler inside, and nothing unwraps them.  After as many calls as the recursion limit every
  call of a logger raises `RecursionError`, and so does `run_blockwise` (C102).
* `TqdmLoggingHandler.emit` does not catch exceptions: after the first `run_blockwise`, a log call whose message cannot be
  formatted raises in the program that makes it, and later handlers do not get the record (C101).
* `removeHandler` has no effect on handlers on terminals after the first `run_blockwise` (C103).
* The first `_recruit_workers` of `Server.run_blockwise` is outside of its `try` statement: if a worker cannot be started
  there, the observers are not told of the exit (the progress display stays, no summary is printed), the streams stay
  open and the workers that were started before are not stopped (C104).  The serial server does not tell its observers of
  the exit if a process function raises.
* `run_blockwise(tasks, scheduler)` with the scheduler of an interrupted run never ends if a client had a block at the
  interruption: the new bookkeeper does not know of it, so nobody can give it back, and it counts as processing forever
  (C105).  In the serial server a block whose process function raised is silently left out by a second run.
* `redirect_stdouterr` assigns `sys.stdout` anew, which closes the old file object.  If that one used descriptor 1 (as after
  `sys.stdout = os.fdopen(1, "w", 1)`), the file for `stderr` is opened as descriptor 1, and the output of child processes
  goes to the wrong file.  If the program has no `stdout` at all, every worker fails with an exception before its spawn
  function is called (C107).
* A client whose server vanished between two blocks gets `StreamClosedError` from `acquire_block` (C61).
* (No theorem, by reading:) the constructor of `SingleTaskDependencyGraph` in `blocks.py` calls
  `compute_level_offset`, which does not exist, so that class cannot be used.
* (By reading:) `count_all_orphans` is passed to `mark_failure`, which does not look at it.
* (By reading:) `DependencyGraph.__enumerate_all_dependencies` uses attributes that do not exist; nothing calls it.

* **C111** `check_complete` (`examples/tutorial.py` 957-965) accepts a block if one value in its write ROI is greater than 0.
  A block whose process was stopped while it stored its results is skipped in the next run, and its results stay incomplete
  (`C111_needs_whole_results`).  The tutorial presents it as inefficient only; the alternative it recommends (998) is correct
  (`C111_marks`).

* **C112** Block ids count from the begin of the total ROI.  If the total ROI is extended at its begin, each id names another
  block than before (`C112_other_begin`), so marks by block id (`check_block` in `examples/tutorial.py` 141-145) from an earlier
  run make the scheduler skip blocks that were never processed.  With `shrink`, extending the end has this effect on the blocks
  at the end (`C112_false_shrink`).

* **C114** With different contexts on the two sides the stride is computed from the larger one on both sides; the levels then
  separate blocks that do not conflict.  A 2-D task that reads one voxel ahead takes four rounds although three would do
  (`C114_false_optimal`).

* **C115** `get_message` looks for exceptions first and at `self.stream` then, `_receive` sets them in the same order; if it does
  both in between, `NotConnected` is raised, which `acquire_block` does not catch (it catches `StreamClosedError`).
  `send_message` and `disconnect` read `self.stream` twice; if it becomes `None` in between they raise `AttributeError`.
  So the calm end of a worker whose server vanishes (C61_waiting_partial) depends on the scheduling of the threads.

* **C116** A client exception without a block, a message of an unknown kind, and a returned block whose status is neither
  `SUCCESS` nor `FAILED` are raised in the event loop, and so end the run of all clients.  Nothing else that a client sends does.

* **C117** `TCPStream.closed` tests `self.stream` and then uses it; if the IO loop sets it to `None` in between, the event
  loop raises `AttributeError`, which ends the run of all clients.  `_get_message` reads `self.stream` twice as well; if a
  failed write sets it to `None` in between, the `AttributeError` goes into the queue of exceptions, and the event loop raises
  it, since it expects only `StreamClosedError`.

* **C118** `_check_all_tasks_completed` sets the stop event, and nothing clears it: a second `run_blockwise` of the same
  `Server` starts its workers, does not enter the event loop, and returns states of which none is done.  If the caller clears
  the event, a request left in the queue makes the first block fail once without any worker having seen it (for good, if
  `max_retries` is 0), and an exception left in the queue ends the run at once.  The second runs of C79 are those that are
  possible: after a run that raised, or with the event cleared.

* **C119** The server releases the block object that comes back, not its own.  A process function that crops
  `block.read_roi` at the left, by something else than a multiple of the write shape, makes `_level` raise NotImplementedError in the server's event loop.  One that crops
  `block.write_roi` at the left makes `downstream` report the neighbours displaced: they are queued with the wrong write ROI
  and their own ids, or not at all, and the run hangs.  One that crops `block.write_roi` at the right is harmless for a
  single task; if other tasks depend on the task, their blocks in the cropped region never become ready, and the run hangs
  although nothing failed.  A failed block is tried again with the ROIs that the failed attempt left.

* **C120** `BlockFailed` carries the exception of user code itself.  If it cannot be pickled (say it holds a lock or a file),
  the IO loop of the client logs this and sends nothing; the server counts the failed attempt when the block comes back,
  but tells nobody, does not count it for the worker, and the summary lists no failure.  If it cannot be unpickled (say its
  `__init__` has a second required parameter), the error of `pickle.loads` is raised in the event loop of the server:
  `run_blockwise` raises it and all tasks end.

* **C122** `mark_success` and `mark_failure` look at the upstream blocks of a block in the order of a list made of sets. If one
  of them depends on another one (a task requires a task directly and through a third one), the order decides whether a
  block leaves the boundary, and so whether it is counted as an orphan a second time. Whether `run_blockwise` returns then
  depends on `PYTHONHASHSEED` (`C122_false`), and so does which blocks are processed without multiprocessing
  (`C122_false_serial`).
* **C123** `_spawn_wrapper` catches the exception of the spawn function and puts it into a `multiprocessing.Queue`, which
  pickles it in a thread of the worker. An exception that cannot be pickled is printed there and dropped, the process exits
  with code 0, and such workers are never replaced. If this happens to all workers, `run_blockwise` hangs (`C123_hang`).
  An exception that cannot be unpickled surfaces as a different one.
* **C124** Nothing checks `num_workers`. With 0 or a negative number no process is ever started, and `run_blockwise` with
  multiprocessing neither ends nor says anything (`C124_none`, `C124_stuck_partial`).
* **C125** The first `_recruit_workers()` is outside of the `try` statement. If a callback of a task that is ready at the
  start raises, observers are not told that the server exits and the streams are not closed (`C125_start`).
* **C126** `count_all_orphans` is stored and handed to `mark_failure`, which does not look at it. `count_all_orphans=False`
  saves no work, and orphans are not counted as pending (`C126_false`).
* **C127** `run_blockwise` calls `tasks.extend` on a slice of its argument: a tuple of tasks raises `AttributeError`. If tasks
  require each other in a circle (`upstream_tasks` can be changed after construction), the loop never ends (`C127_false`).
* **C128** An interrupt that comes after `pool.apply_async` and before the `try` statement, or a second one before
  `stop_event.set()`, leaves `run_blockwise` without telling the server to stop; its thread goes on giving out blocks
  (`C128_goes_on`, `C128_goes_on_twice`, `C128_false`).

## Trusted base

* Lean's kernel. Every theorem in `MANIFEST.json` depends on no axioms other than `propext`, `Classical.choice` and
  `Quot.sound` (checked with `#print axioms` for each). There are no axioms of our own, no `sorry`,
  no `native_decide`, no `bv_decide`. Witness executions are evaluated with `decide` or `decide +kernel`.
* The hand translation of the Python text to Lean (no extraction tool, code not run).
* `funlib.geometry` (`Coordinate`, `Roi`) and `funlib.math.cantor_number`, which are not in
  `/repo`; modelled from their documented behaviour.
* The documented behaviour of `queue.Queue` (first in first out), `multiprocessing.Process.exitcode` (`None` while
  running), `struct` (format `I`: native byte order, taken as little endian; 4 bytes), tornado (`read_bytes(n)` returns exactly n bytes in order; no
  limit on the buffer), tqdm (a bar shows the numbers it was given last),
  `logging` (how a logger calls and removes its handlers).
* Python dicts keep insertion order; `set` order is arbitrary.
* File objects to which nothing refers are closed at once (CPython); `open` uses the lowest free descriptor (POSIX).

### Tests of the translation

`Tests/` restates the tests in `/repo/tests` for the model, with their ROIs, their sequences of operations and the values they
expect (block ids included); the kernel evaluates them. They are tests of the translation, not proofs of claims: each is one
input and, for the servers, one schedule. Covered: all of `test_scheduler.py` (except that
`test_orphan_double_counting`, 361 blocks and too large for the kernel, is proved for all orders as `C22_double_counting`),
`test_dependency_graph.py`, `test_server.py`, `test_dead_workers.py`, `test_worker_spawning.py`, `test_client.py` and, for the side of the client, `test_tcp.py`. Not covered:
`test_clients_close.py` (file locks of processes).

### What is modelled, file by file

| file | modelled | not modelled |
|---|---|---|
| `block.py` | constructor, id, status, equality | `__repr__` |
| `blocks.py` | `expand_*` | class `SingleTaskDependencyGraph` (its constructor always raises) |
| `block_bookkeeper.py` | everything | |
| `cl_monitor.py` | summaries, bars, reports, logging handlers | text layout |
| `client.py` | configuration from the context, `acquire_block`, `release_block` | `set_log_basedir` |
| `context.py` | everything | `__repr__` |
| `convenience.py` | flattening of tasks, results, any number of `KeyboardInterrupt`s | inside of the thread pool |
| `dependency_graph.py` | everything that is called, `enumerate_all_dependencies` of a task | `__enumerate_all_dependencies` (dead) |
| `freezable.py` | everything | |
| `logging.py` | names of log files, file descriptors | creating directories (succeeds or raises) |
| `messages/` | as constructors of an inductive type | pickling (a parameter) |
| `processing_queue.py`, `ready_surface.py`, `scheduler.py`, `task_state.py` | everything | values of the returned dicts of updated tasks (their keys are), `__str__` |
| `serial_server.py` | everything | |
| `server.py` | everything | wall clock (a parameter) |
| `server_observer.py` | notifications as an output log, the notification loop with registration | |
| `task.py` | attributes, total ROI, upstream tasks, classification of the process function, kinds of `check_function`, the loop of `_process_blocks` for process functions with one argument | |
| `task_worker_pools.py`, `worker_pool.py` | everything, a second time with processes of the operating system | |
| `tcp/` | framing, queues, errors, connection state of client and server, choice of port and address, one IO loop per process | asynchronous scheduling inside tornado, `TCPClient.__del__` |
| `worker.py` | ids, `_spawn_wrapper`, process states and exit codes | the operating system process |

Concurrency between the threads of one process (IO loop and main loop) is interleaving of calls of `TCPClient`,
`TCPServer` and `TCPStream`; for the client `Model/TcpThreads` and for the server `Model/ServerThreads` go down to
statements, and C115 and C117 say when that makes a difference.