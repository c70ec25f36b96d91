{
 "claims": [
  {
   "property": "C01",
   "status": "proved",
   "theorems": [
    "Verif.StopSource.C01_one_winner",
    "Verif.StopSource.C01_stop_after_return",
    "Verif.StopSource.C01_stop_permanent",
    "Verif.StopSource.C01_winner_exists"
   ],
   "note": "inplace_stop_source: any number of threads/callbacks, every interleaving (SC)."
  },
  {
   "property": "C02",
   "status": "proved",
   "theorems": [
    "Verif.StopSource.C02_at_most_once",
    "Verif.StopSource.C02_only_after_request"
   ],
   "note": "inplace_stop_source."
  },
  {
   "property": "C03",
   "status": "proved",
   "theorems": [
    "Verif.StopSource.C03_no_use_after_destroy",
    "Verif.StopSource.C03_not_running_elsewhere",
    "Verif.StopSource.C03_never_started_after",
    "Verif.StopSource.C03_waits_only_for_running"
   ],
   "note": "inplace_stop_source, including self-destruction inside the callback."
  },
  {
   "property": "C04",
   "status": "proved",
   "theorems": [
    "Verif.StopSource.C04_none_missed",
    "Verif.StopSource.C04_inline",
    "Verif.StopSource.C04_constructed_after_stop"
   ],
   "note": "inplace_stop_source."
  },
  {
   "property": "C10",
   "status": "partial",
   "theorems": [
    "Verif.IQueue.C10_queue_is_list",
    "Verif.IQueue.C10_iteration",
    "Verif.IQueue.C10_splice_partial",
    "Verif.IQueue.C10_splice_prefix_other",
    "Verif.IQueue.C10_splice_prefix_false",
    "Verif.IQueue.C10_splice_suffix_false",
    "Verif.IQueue.C10_splice_front_false"
   ],
   "note": "All operations except splice are proved correct for every legal program; splice only in the cases where the code is right. The code's splice is wrong for a proper prefix, a suffix and insertion at the front: counterexamples proved."
  },
  {
   "property": "C36",
   "status": "proved",
   "theorems": [
    "Verif.Bulk.C36_no_overflow",
    "Verif.Bulk.C36_partition"
   ],
   "note": "even_share on machine integers of every width up to 64 bits."
  },
  {
   "property": "C37",
   "status": "proved",
   "theorems": [
    "Verif.Bulk.C37_completes_at_most_once",
    "Verif.Bulk.C37_each_index_at_most_once",
    "Verif.Bulk.C37_value_means_all_done",
    "Verif.Bulk.C37_error_was_thrown",
    "Verif.Bulk.C37_no_use_after_completion",
    "Verif.Bulk.C37_completes"
   ],
   "note": "Pool bulk: every shape, parallelism, interleaving and throw pattern."
  },
  {
   "property": "C35",
   "status": "proved",
   "theorems": [
    "Verif.Env.C35_first",
    "Verif.Env.C35_first_wins",
    "Verif.Env.C35_none",
    "Verif.Env.C35_fwd",
    "Verif.Env.C35_join",
    "Verif.Env.C35_join_assoc",
    "Verif.Env.C35_root"
   ],
   "note": "env, env joins and forwarding queries; every list of environments and every query."
  },
  {
   "property": "C40",
   "status": "proved",
   "theorems": [
    "Verif.Heap.C40_contents",
    "Verif.Heap.C40_front",
    "Verif.Heap.C40_erase_answer",
    "Verif.Heap.C40_enabled"
   ],
   "note": "intrusive_heap: every linear order of keys, every history of insert/pop_front/erase."
  },
  {
   "property": "C25",
   "status": "proved",
   "theorems": [
    "Verif.Sender.completes_at_most_once",
    "Verif.Sender.exactly_one_pending",
    "Verif.Sender.completes_exactly_once",
    "Verif.Sender.always_terminates"
   ],
   "note": "Every expression over the modelled adaptors (deep embedding), every leaf behaviour, every throw."
  },
  {
   "property": "C26",
   "status": "proved",
   "theorems": [
    "Verif.Sender.upon_spec",
    "Verif.Sender.upon_calls_once"
   ],
   "note": "iff characterisation of all runs."
  },
  {
   "property": "C27",
   "status": "proved",
   "theorems": [
    "Verif.Sender.let_spec",
    "Verif.Sender.let_just",
    "Verif.Sender.let_right_just",
    "Verif.Sender.let_assoc"
   ],
   "note": "iff characterisation of all runs plus the monad laws."
  },
  {
   "property": "C28",
   "status": "partial",
   "theorems": [
    "Verif.Sender.signatures_sound_partial",
    "Verif.Sender.never_ill_formed",
    "Verif.Sender.finally_undeclared",
    "Verif.Sender.repeat_until_undeclared",
    "Verif.Sender.repeat_n_undeclared"
   ],
   "note": "Soundness proved under WT, which contains three conditions the library does not enforce; the witnesses show the declared signatures are wrong without them."
  },
  {
   "property": "C29",
   "status": "partial",
   "theorems": [
    "Verif.Sender.exception_delivered",
    "Verif.Sender.never_terminates_partial",
    "Verif.Sender.finally_terminates"
   ],
   "note": "Exceptions in completion handlers become set_error exactly once; the 'never terminates' half excludes run-time connects of finally with throwing child connects, where the code does terminate (witness)."
  },
  {
   "property": "C30",
   "status": "partial",
   "theorems": [
    "Verif.Sender.continues_on_partial",
    "Verif.Sender.continues_on_full",
    "Verif.Sender.continues_on_wrong_context",
    "Verif.Sender.starts_on_spec"
   ],
   "note": "False in the code when storing the result throws (witness continues_on_wrong_context); proved otherwise, complete behaviour in continues_on_full; starts_on proved."
  },
  {
   "property": "C31",
   "status": "partial",
   "theorems": [
    "Verif.Sender.finally_partial",
    "Verif.Sender.finally_full",
    "Verif.Sender.finally_skips_final"
   ],
   "note": "False in the code when storing the initial result throws (witness finally_skips_final); proved otherwise, complete behaviour in finally_full."
  },
  {
   "property": "C32",
   "status": "proved",
   "theorems": [
    "Verif.Sender.demat_mat",
    "Verif.Sender.into_variant_lossless",
    "Verif.Sender.into_variant_complete",
    "Verif.Sender.stopped_as_optional_spec",
    "Verif.Sender.stopped_as_error_spec"
   ],
   "note": "All runs."
  },
  {
   "property": "C33",
   "status": "proved",
   "theorems": [
    "Verif.Sender.repeat_n_spec",
    "Verif.Sender.repeat_n_value",
    "Verif.Sender.repeat_until_spec",
    "Verif.Sender.repeat_never_value"
   ],
   "note": "All runs."
  },
  {
   "property": "C45",
   "status": "proved",
   "theorems": [
    "Verif.Sender.sequence_spec",
    "Verif.Sender.bulk_spec",
    "Verif.Sender.bulk_indices",
    "Verif.Sender.read_write_env"
   ],
   "note": "All runs."
  },
  {
   "property": "C06",
   "status": "proved",
   "theorems": [
    "Verif.RunLoop.C06_fifo",
    "Verif.RunLoop.C06_once",
    "Verif.RunLoop.C06_executes",
    "Verif.RunLoop.C06_completions",
    "Verif.RunLoop.C06_only_run",
    "Verif.RunLoop.C06_kind",
    "Verif.RunLoop.C07_drained"
   ],
   "note": "Any number of tasks/threads, every interleaving; queue pointer-level correctness is C11."
  },
  {
   "property": "C07",
   "status": "proved",
   "theorems": [
    "Verif.RunLoop.C07_drained",
    "Verif.RunLoop.C07_returns"
   ],
   "note": "Includes termination of run() once everyone else is done."
  },
  {
   "property": "C08",
   "status": "proved",
   "theorems": [
    "Verif.RunLoop.C08_no_lost_wakeup",
    "Verif.RunLoop.C08_finish_wakes",
    "Verif.RunLoop.C08_notify_wakes"
   ],
   "note": "atomic wait/notify per its contract."
  },
  {
   "property": "C09",
   "status": "partial",
   "theorems": [
    "Verif.RunLoop.C09_finish",
    "Verif.RunLoop.C09_start_partial",
    "Verif.RunLoop.C09_start_false"
   ],
   "note": "finish() is safe; start() is not: its trailing notify_one may touch a destroyed loop (witness C09_start_false); C09_start_partial shows that is the only such access."
  },
  {
   "property": "C11",
   "status": "proved",
   "theorems": [
    "Verif.AtomicQueue.C11_batches",
    "Verif.AtomicQueue.C11_was_empty",
    "Verif.AtomicQueue.C11_no_share",
    "Verif.AtomicQueue.C11_pop_wait_free",
    "Verif.AtomicQueue.C11_pop_never_blocks",
    "Verif.AtomicQueue.C11_push_alone"
   ],
   "note": "Pointer level, multi-producer multi-consumer, both stdexec and exec variants, node reuse included."
  },
  {
   "property": "C12",
   "status": "partial",
   "theorems": [
    "Verif.Mpsc.C12_fifo",
    "Verif.Mpsc.C12_pop_oldest",
    "Verif.Mpsc.C12_pop_complete",
    "Verif.Mpsc.C12_push_on_empty",
    "Verif.Mpsc.C12_push_false_nonempty",
    "Verif.Mpsc.C12_wakeup_false"
   ],
   "note": "FIFO, completeness and the was-empty result proved for any number of producers; but a pop may miss completed pushes behind a push in progress whose was-empty result is false, so waking on was-empty loses wake-ups (witness C12_wakeup_false)."
  },
  {
   "property": "C05",
   "status": "proved",
   "theorems": [
    "Verif.StopWhen.C05_token",
    "Verif.StopWhen.C05_token_possible",
    "Verif.StopWhen.C05_once",
    "Verif.StopWhen.C05_runs",
    "Verif.StopWhen.C05_progress",
    "Verif.StopWhen.C05_no_use_after_destroy"
   ],
   "note": "Every interleaving of both sources, construction and destruction (including self-destruction); the sources by the contract proved in C02-C04."
  },
  {
   "property": "C16",
   "status": "partial",
   "theorems": [
    "Verif.WhenAll.C16_at_most_once_partial",
    "Verif.WhenAll.C16_completes_partial",
    "Verif.WhenAll.C16_terminates",
    "Verif.WhenAll.late_needs_stop",
    "Verif.WhenAll.C16_double_completion"
   ],
   "note": "False in the code: a stop request between the last arrival and the reset of the stop callback completes the receiver twice (witness C16_double_completion). Proved outside that window, for every n and schedule, with termination."
  },
  {
   "property": "C17",
   "status": "proved",
   "theorems": [
    "Verif.WhenAll.C17_values_in_order"
   ],
   "note": "Every n and every arrival order."
  },
  {
   "property": "C18",
   "status": "proved",
   "theorems": [
    "Verif.WhenAll.C18_disposition",
    "Verif.WhenAll.C18_log"
   ],
   "note": "Every n, every schedule, throwing copies included."
  },
  {
   "property": "C19",
   "status": "partial",
   "theorems": [
    "Verif.WhenAny.C19_at_most_once_partial",
    "Verif.WhenAny.C19_first_wins_partial",
    "Verif.WhenAny.C19_completes_partial",
    "Verif.WhenAny.C19_terminates",
    "Verif.WhenAny.late_needs_stop",
    "Verif.WhenAny.C19_double_completion",
    "Verif.WhenAny.C19_stop_beats_result"
   ],
   "note": "False in the code in two ways: the same double completion as when_all (witness), and a stop request replaces the winner's result by stopped (witness). Proved otherwise."
  },
  {
   "property": "C13",
   "status": "proved",
   "theorems": [
    "Verif.Scope.C13_count",
    "Verif.Scope.C13_granted_only_if",
    "Verif.Scope.C13_refused_only_if",
    "Verif.Scope.C13_decides",
    "Verif.Scope.C13_closed",
    "Verif.Scope.Packed.C13_packed"
   ],
   "note": "Any number of threads, every interleaving, spurious CAS failures included; packed-word arithmetic separately."
  },
  {
   "property": "C14",
   "status": "proved",
   "theorems": [
    "Verif.Scope.C14_once",
    "Verif.Scope.C14_empty_at_completion",
    "Verif.Scope.C14_no_grant_after",
    "Verif.Scope.C14_completes"
   ],
   "note": "Including that every join does complete once associations are gone and threads have finished."
  },
  {
   "property": "C15",
   "status": "partial",
   "theorems": [
    "Verif.Scope.C15_no_terminate",
    "Verif.Scope.C15_safe_partial",
    "Verif.Scope.C15_single_join",
    "Verif.Scope.C15_false"
   ],
   "note": "The destructor never terminates; no use after destruction if all started joins completed first; false with two joins (witness C15_false)."
  },
  {
   "property": "C20",
   "status": "partial",
   "theorems": [
    "Verif.SpawnFuture.C20_once_partial",
    "Verif.SpawnFuture.C20_completes_partial",
    "Verif.SpawnFuture.C20_terminates",
    "Verif.SpawnFuture.C20_stop_forwarded",
    "Verif.SpawnFuture.nested_needs_stop"
   ],
   "note": "All interleavings of producer, consumer and canceller, except those in which the work completes nested inside the canceller's request_stop while the receiver is registered (there the state is already used after destruction, see C21_false)."
  },
  {
   "property": "C21",
   "status": "partial",
   "theorems": [
    "Verif.SpawnFuture.C21_no_use_after_partial",
    "Verif.SpawnFuture.C21_destroyed_partial",
    "Verif.SpawnFuture.C21_false"
   ],
   "note": "False in the code: inline completion inside the stop request frees the state under the canceller (witness C21_false). Proved for all other executions."
  },
  {
   "property": "C22",
   "status": "proved",
   "theorems": [
    "Verif.Shared.C22_start_once",
    "Verif.Shared.C22_once",
    "Verif.Shared.C22_result_is",
    "Verif.Shared.C22_result_stable",
    "Verif.Shared.C22_complete",
    "Verif.Shared.C22_terminates",
    "Verif.Shared.C22_memory",
    "Verif.Shared.C22_no_leak"
   ],
   "note": "Any number of consumers, every interleaving of copies, starts, stop requests, completion and destruction; includes termination and reclamation of the shared state."
  },
  {
   "property": "C23",
   "status": "partial",
   "theorems": [
    "Verif.Shared.C23_abandoned_partial",
    "Verif.Shared.C23_not_premature",
    "Verif.Shared.C23_false"
   ],
   "note": "False in the code when two consumers detach at the same time: each sees the other's reference and neither requests stop (witness C23_false). Proved when detaches do not overlap; and stop is never requested while another consumer still holds the operation."
  },
  {
   "property": "C24",
   "status": "proved",
   "theorems": [
    "Verif.AsyncScope.C24_empty_at_release",
    "Verif.AsyncScope.C24_waits",
    "Verif.AsyncScope.C24_before",
    "Verif.AsyncScope.C24_once",
    "Verif.AsyncScope.C24_released",
    "Verif.AsyncScope.C24_terminates",
    "Verif.AsyncScope.C24_destroy"
   ],
   "note": "Any number of nested operations and waiters, every interleaving; includes termination and that the destructor's assertions hold."
  },
  {
   "property": "C34",
   "status": "proved",
   "theorems": [
    "Verif.SyncWait.C34_outcome",
    "Verif.SyncWait.C34_compl_stable",
    "Verif.SyncWait.C34_returns",
    "Verif.SyncWait.C34_no_use_after"
   ],
   "note": "Built on the run_loop model: any thread may complete the sender at any time, inline included; every completion kind, null exception_ptr and throwing stores included."
  },
  {
   "property": "C46",
   "status": "proved",
   "theorems": [
    "Verif.SList.C46_push",
    "Verif.SList.C46_pop",
    "Verif.SList.C46_remove",
    "Verif.SList.C46_refines"
   ],
   "note": "Every memory state representing a list, every sequence of operations."
  },
  {
   "property": "C47",
   "status": "partial",
   "theorems": [
    "Verif.AsyncFuture.C47_once",
    "Verif.AsyncFuture.C47_result",
    "Verif.AsyncFuture.C47_result_stable",
    "Verif.AsyncFuture.C47_completes",
    "Verif.AsyncFuture.C47_terminates",
    "Verif.AsyncFuture.C47_memory_partial",
    "Verif.AsyncFuture.C47_deleted_once",
    "Verif.AsyncFuture.C47_no_leak",
    "Verif.AsyncFuture.C47_stop_false",
    "Verif.AsyncFuture.C47_stop_never_reaches",
    "Verif.AsyncFuture.C47_assign_false",
    "Verif.AsyncFuture.C47_drop_false"
   ],
   "note": "Exactly-once, result, termination, deletion proved. False in the code: the stop request never reaches the work (C47_stop_false), move-assigning a future frees running work (C47_assign_false), destroying the operation while a stop request arrives uses freed state (C47_drop_false)."
  },
  {
   "property": "C42",
   "status": "proved",
   "theorems": [
    "Verif.Trampoline.C42_once",
    "Verif.Trampoline.C42_all",
    "Verif.Trampoline.C42_depth",
    "Verif.Trampoline.C42_depth_limit",
    "Verif.Trampoline.C42_fifo",
    "Verif.Trampoline.C42_deferred",
    "Verif.Trampoline.C42_stopped",
    "Verif.Trampoline.C42_terminates"
   ],
   "note": "Arbitrary recursion patterns (any user code), any outcome of the stack-size test, stop requests at any time; pointer-level queue."
  },
  {
   "property": "C43",
   "status": "proved",
   "theorems": [
    "Verif.Variant.C43_no_fault",
    "Verif.Variant.C43_index",
    "Verif.Variant.C43_owner",
    "Verif.Variant.C43_destroyed_once",
    "Verif.Variant.C43_no_leak",
    "Verif.Variant.C43_emplace",
    "Verif.Variant.C43_construct",
    "Verif.Variant.C43_assign",
    "Verif.Variant.C43_swap",
    "Verif.Variant.C43_copy_false"
   ],
   "note": "Any number of variants and alternatives, every history, throwing constructors and owner-destroying constructors. Copying preserves the alternative only if the types are distinct; with repeated types it does not (witness C43_copy_false), which is outside the property as stated."
  },
  {
   "property": "C44",
   "status": "partial",
   "theorems": [
    "Verif.Sequence.C44_in_order",
    "Verif.Sequence.C44_one_at_a_time",
    "Verif.Sequence.C44_completion",
    "Verif.Sequence.C44_completes",
    "Verif.Sequence.Ignore.C44_ignore_once",
    "Verif.Sequence.Ignore.C44_ignore_result_partial",
    "Verif.Sequence.Ignore.C44_ignore_pass",
    "Verif.Sequence.Ignore.C44_ignore_safe",
    "Verif.Sequence.Ignore.C44_error_lost",
    "Verif.Sequence.Ignore.C44_pipeline"
   ],
   "note": "Order, once, one at a time, completion: proved for every range, transformation and receiver behaviour; ignore_all_values with any number of concurrent items. An item's error is lost when the sequence itself completes with stopped (witness C44_error_lost), so the result clause holds only for sequences completing with a value."
  },
  {
   "property": "C41",
   "status": "partial",
   "theorems": [
    "Verif.Timed.C41_once",
    "Verif.Timed.C41_not_early",
    "Verif.Timed.C41_log_time",
    "Verif.Timed.C41_stopped_cause",
    "Verif.Timed.C41_order",
    "Verif.Timed.C41_no_deadlock",
    "Verif.Timed.C41_completes_partial",
    "Verif.Timed.C41_shutdown_partial",
    "Verif.Timed.C41_exit_safe",
    "Verif.Timed.C41_lost_forever",
    "Verif.Timed.C41_shutdown_false",
    "Verif.Timed.C41_shutdown_stop_false",
    "Verif.Timed.C41_stop_overtakes_false",
    "Verif.Timed.C41_wakeup_false"
   ],
   "note": "At most once, no use after completion, never early, stopped only with a cause, delivery in (deadline, submission) order, no deadlock, safe exit: proved in full. Exactly-once is partial: C41_completes_partial and C41_shutdown_partial assume an empty command queue. The full statement is false of the code, by witness: C41_shutdown_false and C41_shutdown_stop_false (commands left in the queue at shutdown are never completed, C41_lost_forever), C41_stop_overtakes_false (a stop request that overtakes start is ignored until the deadline), C41_wakeup_false (a due operation waits for another one's deadline)."
  },
  {
   "property": "C38",
   "status": "proved",
   "theorems": [
    "Verif.PoolSleep.C38_no_lost_wakeup",
    "Verif.PoolSleep.C38_no_lost_stop",
    "Verif.PoolSleep.C38_quiet",
    "Verif.PoolSleep.C38_terminates",
    "Verif.PoolSleep.C38_stuck",
    "Verif.PoolSleep.C38_all_executed",
    "Verif.PoolSleep.C38_sleeps_empty",
    "Verif.PoolSleep.C38_exactly_once",
    "Verif.PoolSleep.C38_exit",
    "Verif.PoolSleep.C38_stop_drops"
   ],
   "note": "One worker with any number of remote queues, submitters, notifiers, thieves and stoppers: no lost wake-up, no lost stop, no lost or duplicated task. Witness C38_stop_drops records that a task submitted before request_stop can be left in the queue for ever."
  },
  {
   "property": "C39",
   "status": "proved",
   "theorems": [
    "Verif.Bwos.C39_history",
    "Verif.Bwos.C39_exactly_once",
    "Verif.Bwos.C39_thief_returns",
    "Verif.Bwos.C39_thief_pending",
    "Verif.Bwos.C39_no_race",
    "Verif.Bwos.C39_bounds",
    "Verif.Bwos.C39_null_is_empty",
    "Verif.Bwos.C39_push_after_null",
    "Verif.Bwos.C39_push_pop",
    "Verif.Bwos.C39_reject_full",
    "Verif.Bwos.C39_spin_ends",
    "Verif.Bwos.C39_steal_oldest"
   ],
   "note": "Every block count, block size, number of thieves, call sequence and interleaving (sequentially consistent memory, 32-bit round counter not wrapped)."
  },
  {
   "property": "C48",
   "status": "proved",
   "theorems": [
    "Verif.StopSource.C48_no_deadlock",
    "Verif.StopSource.C48_terminates",
    "Verif.StopSource.C48_all_return",
    "Verif.StopSource.C48_can_finish"
   ],
   "note": "no_deadlock: some thread can step or a callback's own function is running; terminates: runs of non-call steps are bounded from every reachable state; all_return: a state in which nothing can step has no call in progress; can_finish: combination"
  },
  {
   "property": "C49",
   "status": "partial",
   "theorems": [
    "Verif.MergeEach.C49_once",
    "Verif.MergeEach.C49_completion_last",
    "Verif.MergeEach.C49_after_children",
    "Verif.MergeEach.C49_nothing_after",
    "Verif.MergeEach.C49_reports_exact",
    "Verif.MergeEach.C49_outcome",
    "Verif.MergeEach.C49_first_error_stops",
    "Verif.MergeEach.C49_unstoppable_never_stops",
    "Verif.MergeEach.C49_handlers_terminate",
    "Verif.MergeEach.C49_handlers_never_block",
    "Verif.MergeEach.C49_done_when_quiet",
    "Verif.MergeEach.C49_outer_can_complete_partial",
    "Verif.MergeEach.C49_lost_never_completes",
    "Verif.MergeEach.C49_hang",
    "Verif.MergeEach.C49_error_alive_partial",
    "Verif.MergeEach.C49_error_dangles"
   ],
   "note": "Proved for any number of nested sequences and values: exactly-once, last call, only after every child and handler finished, nothing after, exact completion policy (first error by arrival), handlers terminate and never block, completion once all children are quiet, first error requests stop when the receiver's token is stoppable. The code violates three parts of the property, proved by witness: with an unstoppable receiver token the children are never stopped (C49_unstoppable_never_stops); if the sender of a nested sequence completes with error/stopped or subscribing throws, merge_each never completes (C49_lost_never_completes, C49_hang); an error of a nested value sender may be read after its operation state was destroyed (C49_error_dangles)."
  },
  {
   "property": "C50",
   "status": "proved",
   "theorems": [
    "Verif.IntrusivePtr.C50_owned_is_alive",
    "Verif.IntrusivePtr.C50_at_most_once",
    "Verif.IntrusivePtr.C50_no_leak",
    "Verif.IntrusivePtr.C50_prompt",
    "Verif.IntrusivePtr.C50_no_use_after_free",
    "Verif.IntrusivePtr.C50_count",
    "Verif.IntrusivePtr.C50_bits",
    "Verif.IntrusivePtr.C50_wait_free"
   ],
   "note": "any number of objects, variables and threads; the count word is a natural number (no wrap-around), caller contract as for shared_ptr"
  },
  {
   "property": "C51",
   "status": "partial",
   "theorems": [
    "Verif.Pool.C51_exactly_once",
    "Verif.Pool.C51_at_most_once",
    "Verif.Pool.C51_terminates",
    "Verif.Pool.C51_all_executed",
    "Verif.Pool.C51_join_returns",
    "Verif.Pool.C51_shutdown_partial",
    "Verif.Pool.C51_dropped_for_good",
    "Verif.Pool.C51_stop_drops"
   ],
   "note": "Composition of any number of the workers of C38 with stealing: exactly-once with the right tid, termination, everything executed at rest, join returns. Violated by the code: a task submitted before the stop request may be left in a remote queue for ever (C51_stop_drops, C51_dropped_for_good); proved instead: only remote queues can be left non-empty (C51_shutdown_partial)"
  },
  {
   "property": "C52",
   "status": "partial",
   "theorems": [
    "Verif.AnyBox.any_values_partial",
    "Verif.AnyBox.any_lifetimes_partial",
    "Verif.AnyBox.any_aligned_partial",
    "Verif.AnyBox.any_conversion_nothrow_partial",
    "Verif.AnyBox.throwing_small_ctor_breaks",
    "Verif.AnyBox.throwing_small_copy_breaks",
    "Verif.AnyBox.overaligned_small_misplaced",
    "Verif.AnyBox.noexcept_conversion_terminates"
   ],
   "note": "Refinement of a value-semantics specification for every program, plus exactly-once destruction and deallocation, for types whose constructors do not throw when small enough for the buffer. Violated by the code otherwise (throwing_small_ctor_breaks, throwing_small_copy_breaks), for over-aligned small types (overaligned_small_misplaced) and for noexcept conversions between interfaces that are not pointer-convertible (noexcept_conversion_terminates)."
  },
  {
   "property": "C53",
   "status": "proved",
   "theorems": [
    "Verif.Awaiter.resumed_at_most_once",
    "Verif.Awaiter.observed",
    "Verif.Awaiter.result_from_completion",
    "Verif.Awaiter.no_use_after_destroy",
    "Verif.Awaiter.runs_alone",
    "Verif.Awaiter.bounded_stack",
    "Verif.Awaiter.resumes_where",
    "Verif.Awaiter.not_stuck",
    "Verif.Awaiter.waits_only_for_start",
    "Verif.Awaiter.internal_terminates",
    "Verif.Awaiter.eventually_resumed"
   ],
   "note": "one coroutine, any number of awaits and threads; the MSVC work-around branch is not modelled"
  },
  {
   "property": "C54",
   "status": "partial",
   "theorems": [
    "Verif.Task.outcome_partial",
    "Verif.Task.no_early_outcome_partial",
    "Verif.Task.no_use_after_destroy_partial",
    "Verif.Task.lifetimes_partial",
    "Verif.Task.all_destroyed_partial",
    "Verif.Task.callback_scope_partial",
    "Verif.Task.stop_forwarded_partial",
    "Verif.Task.affinity_partial",
    "Verif.Task.no_livelock",
    "Verif.Task.not_stuck",
    "Verif.Task.stop_source_destroyed_in_use",
    "Verif.Task.affinity_lost_after_default_scheduler"
   ],
   "note": "one root operation, one stop request; needs that no awaited sender resumes the coroutine inside its own stop callback, or that no task translates stop tokens (otherwise `stop_source_destroyed_in_use`); affinity needs start schedulers made from the awaiting environment's (otherwise `affinity_lost_after_default_scheduler`)"
  },
  {
   "property": "C55",
   "status": "partial",
   "theorems": [
    "Verif.Uring.C55_at_most_once",
    "Verif.Uring.C55_stopped_only_after_stop",
    "Verif.Uring.C55_schedule_not_in_ring",
    "Verif.Uring.C55_rings_bounded_partial",
    "Verif.Uring.C55_no_livelock",
    "Verif.Uring.C55_return_complete_partial",
    "Verif.Uring.C55_return_empty_partial",
    "Verif.Uring.C55_no_lost_wakeup_partial",
    "Verif.Uring.C55_finish_noticed_partial",
    "Verif.Uring.C55_run_sender_once_partial",
    "Verif.Uring.C55_rerun_hangs",
    "Verif.Uring.C55_restart_returns_at_once",
    "Verif.Uring.C55_cancel_lost",
    "Verif.Uring.C55_finish_during_stop",
    "Verif.Uring.C55_cancel_not_noticed",
    "Verif.Uring.C55_full_ring_misses_wakeup",
    "Verif.Uring.C55_run_sender_twice"
   ],
   "note": "one driving thread, one drive per construction/reset, at least 2 submission slots; completion at return and no lost wake-up need: no cancellation operation racing with the close, fewer I/O operations than submission slots, no finish() together with a stop. Outside each of these the code violates the property (witnesses). at_most_once, stopped_only_after_stop, schedule_not_in_ring and no_livelock hold without restriction"
  },
  {
   "property": "C56",
   "status": "partial",
   "theorems": [
    "Verif.UringOp.C56_at_most_once",
    "Verif.UringOp.C56_no_use_after_completion",
    "Verif.UringOp.C56_stopped_only_if_asked",
    "Verif.UringOp.C56_stop_is_submitted",
    "Verif.UringOp.C56_stop_op_linked_once_partial",
    "Verif.UringOp.C56_completes_partial",
    "Verif.UringOp.C56_terminates",
    "Verif.UringOp.C56_timespec",
    "Verif.UringOp.C56_stop_op_linked_twice",
    "Verif.UringOp.C56_never_completes_when_closed"
   ],
   "note": "the stop operation can be linked twice when both tokens are stopped (witness), and an operation started on a closed context never completes (witness); everything else holds on a context that is not closed"
  },
  {
   "property": "C57",
   "status": "partial",
   "theorems": [
    "Verif.Associate.C57_one_association_each",
    "Verif.Associate.C57_destroyed_once",
    "Verif.Associate.C57_nothing_left",
    "Verif.Associate.C57_joined_means_destroyed",
    "Verif.Associate.C57_closed_no_new",
    "Verif.Associate.C57_operation",
    "Verif.Associate.C57_never_early_partial",
    "Verif.Associate.C57_move_early",
    "Verif.Associate.C57_connect_early"
   ],
   "note": "everything proved for every program and every exception, except that the association outlives the wrapped sender inside a move or connect that throws: there the code releases the association first (witnesses)"
  },
  {
   "property": "C58",
   "status": "partial",
   "theorems": [
    "Verif.Coro.runs_as_specified",
    "Verif.Coro.terminates_as_specified",
    "Verif.Coro.never_stuck",
    "Verif.Coro.exit_actions",
    "Verif.Coro.exit_actions_transparent",
    "Verif.Coro.affinity",
    "Verif.Coro.affinity_stopped",
    "Verif.Coro.reschedule_undone",
    "Verif.Coro.failing_action_terminates",
    "Verif.Coro.actions_destroyed_in_time_partial",
    "Verif.Coro.action_outlives_stopped_task",
    "Verif.Coro.reschedule_error_terminates"
   ],
   "note": "proved for every program, except that the last exit action of a stopped task is destroyed only after the task has completed (witness); a scheduler failing in reschedule_coroutine_on terminates (witness)"
  },
  {
   "property": "C59",
   "status": "partial",
   "theorems": [
    "Verif.Asio.C59_safe_partial",
    "Verif.Asio.C59_outcome_partial",
    "Verif.Asio.C59_abandoned_last_partial",
    "Verif.Asio.C59_no_deadlock_partial",
    "Verif.Asio.C59_returns",
    "Verif.Asio.C59_cancel_partial",
    "Verif.Asio.C59_eager",
    "Verif.Asio.C59_violated_emit_call",
    "Verif.Asio.C59_violated_emit_drop",
    "Verif.Asio.C59_violated_emit_start",
    "Verif.Asio.C59_violated_throw_init",
    "Verif.Asio.C59_violated_throw_run",
    "Verif.Asio.C59_violated_parallel"
   ],
   "note": "proved for users that respect a contract (Ok); without it the operation state is accessed after completion: handler invoked or dropped inside the emission of the cancellation signal, an exception after an inline completion, a parallel path still queued when the handler is dropped (witnesses)"
  },
  {
   "property": "C60",
   "status": "partial",
   "theorems": [
    "Verif.ParSched.C60_default_backend_partial",
    "Verif.ParSched.C60_task_backend",
    "Verif.ParSched.C60_each_once_partial",
    "Verif.ParSched.C60_completed_once_partial",
    "Verif.ParSched.C60_progress",
    "Verif.ParSched.C60_terminates",
    "Verif.ParSched.C60_sequential",
    "Verif.ParSched.C60_violated_wrap",
    "Verif.ParSched.C60_violated_task_throw",
    "Verif.ParSched.C60_violated_task_seq",
    "Verif.ParSched.C60_violated_task_setup",
    "Verif.ParSched.C60_throw_witness",
    "Verif.ParSched.C60_seq_chunked_witness",
    "Verif.ParSched.C60_seq_witness"
   ],
   "note": "on a task_scheduler only for parallel policies and without exceptions (otherwise violated: C60_violated_task_seq, C60_violated_task_throw); the default back end for shapes that do not wrap size_t (C60_violated_wrap)"
  },
  {
   "property": "C61",
   "status": "partial",
   "theorems": [
    "Verif.Backend.C61_mutex",
    "Verif.Backend.C61_result",
    "Verif.Backend.C61_chain",
    "Verif.Backend.C61_returns",
    "Verif.Backend.C61_no_deadlock",
    "Verif.Backend.C61_settled_partial",
    "Verif.Backend.C61_set_partial",
    "Verif.Backend.C61_violated_two_backends",
    "Verif.Backend.C61_violated_set_lost"
   ],
   "note": "mutual exclusion, result, factory chain, termination, no deadlock proved in full; one backend for all callers and replacement only when no other call is making or replacing an instance (otherwise violated: C61_violated_two_backends, C61_violated_set_lost)"
  },
  {
   "property": "C62",
   "status": "partial",
   "theorems": [
    "Verif.ParOp.C62_at_most_once",
    "Verif.ParOp.C62_safe",
    "Verif.ParOp.C62_stopped_only_if_asked",
    "Verif.ParOp.C62_released_task",
    "Verif.ParOp.C62_released_partial",
    "Verif.ParOp.C62_stop_forwarded_partial",
    "Verif.ParOp.C62_progress",
    "Verif.ParOp.C62_alignment",
    "Verif.ParOp.C62_violated_stop_task",
    "Verif.ParOp.C62_violated_stop_bulk",
    "Verif.ParOp.C62_violated_unstarted",
    "Verif.ParOp.C62_violated_stopped",
    "Verif.ParOp.C62_violated_bulk_error",
    "Verif.ParOp.C62_violated_stop_task_witness"
   ],
   "note": "completion, safety, alignment and (task_scheduler) release proved in full; a parallel_scheduler operation that does not reach the back end always leaves its reference or its predecessor's operation undestroyed (C62_released_partial is an equivalence; witnesses); stop requests are forwarded except through non-inplace tokens on a task_scheduler or for bulk"
  },
  {
   "property": "C63",
   "status": "partial",
   "theorems": [
    "Verif.WinPool.C63_safe",
    "Verif.WinPool.C63_at_most_once",
    "Verif.WinPool.C63_no_deadlock",
    "Verif.WinPool.C63_terminates",
    "Verif.WinPool.C63_complete",
    "Verif.WinPool.C63_stop_before_start",
    "Verif.WinPool.C63_stop_wins",
    "Verif.WinPool.C63_violated_stop_ignored"
   ],
   "note": "everything proved for the protocol itself; violated by the code: whether the protocol is used is decided by asking the receiver, not its environment, for a stop token, and without it stop requests are ignored (C63_violated_stop_ignored)"
  },
  {
   "property": "C64",
   "status": "partial",
   "theorems": [
    "Verif.StartNow.C64_once",
    "Verif.StartNow.C64_not_before_partial",
    "Verif.StartNow.C64_waiting",
    "Verif.StartNow.C64_safe",
    "Verif.StartNow.C64_completes",
    "Verif.StartNow.C64_wait_free",
    "Verif.StartNow.C64_violated_early"
   ],
   "note": "with several async_wait operations at a time every one but the first completes at once (C64_violated_early); everything else proved in full"
  },
  {
   "property": "C65",
   "status": "partial",
   "theorems": [
    "Verif.Detached.C65_safe_partial",
    "Verif.Detached.C65_released_partial",
    "Verif.Detached.C65_throws_partial",
    "Verif.Detached.C65_alive_partial",
    "Verif.Detached.C65_terminates",
    "Verif.Detached.C65_violated_inline"
   ],
   "note": "proved for connected senders and for submit without a result (all of the library's own), and for submit with a result if the work completes after submit has returned; otherwise violated (C65_violated_inline)"
  },
  {
   "property": "C66",
   "status": "proved",
   "theorems": [
    "Verif.ConnAwait.C66_once",
    "Verif.ConnAwait.C66_outcome",
    "Verif.ConnAwait.C66_protocol",
    "Verif.ConnAwait.C66_lifetimes",
    "Verif.ConnAwait.C66_awaiter_alive",
    "Verif.ConnAwait.C66_not_lost",
    "Verif.ConnAwait.C66_bounded"
   ],
   "note": "awaiters follow the rules for coroutines: the handle is used at most once, and not if await_suspend throws, returns false or the handle itself"
  },
  {
   "property": "C67",
   "status": "partial",
   "theorems": [
    "Verif.AnySender.C67_once",
    "Verif.AnySender.C67_safe_partial",
    "Verif.AnySender.C67_stop_forwarded_partial",
    "Verif.AnySender.C67_no_deadlock_partial",
    "Verif.AnySender.C67_violated_inline"
   ],
   "note": "safety, forwarding and progress for erased operations that do not complete inside their own stop callback; otherwise violated when stop tokens are translated (C67_violated_inline)"
  },
  {
   "property": "C68",
   "status": "partial",
   "theorems": [
    "Verif.PoolBase.C68_agents_partial",
    "Verif.PoolBase.C68_safe_partial",
    "Verif.PoolBase.C68_outcome_partial",
    "Verif.PoolBase.C68_completes_partial",
    "Verif.PoolBase.C68_hang",
    "Verif.PoolBase.C68_violation",
    "Verif.PoolBase.C68_blowup"
   ],
   "note": "for pools whose size is representable in the shape type; otherwise the code loses the completion (C68_violation, C68_hang) or asks for billions of tasks (C68_blowup)"
  },
  {
   "property": "C69",
   "status": "partial",
   "theorems": [
    "Verif.Dispatch.C69_safe_partial",
    "Verif.Dispatch.C69_loop_only_partial",
    "Verif.Dispatch.C69_outcome_partial",
    "Verif.Dispatch.C69_completes_partial",
    "Verif.Dispatch.C69_use_after_completion",
    "Verif.Dispatch.C69_truncated"
   ],
   "note": "for shapes below 2^32 everything but the submission loop's last test, which reads the completed operation (C69_use_after_completion); a larger shape completes early (C69_truncated)"
  },
  {
   "property": "C70",
   "status": "partial",
   "theorems": [
    "Verif.MemRes.C70_aligned_partial",
    "Verif.MemRes.C70_disjoint_partial",
    "Verif.MemRes.C70_allocates_partial",
    "Verif.MemRes.C70_contents_partial",
    "Verif.MemRes.C70_returns_partial",
    "Verif.MemRes.C70_violation"
   ],
   "note": "for requests that do not overflow size_t; otherwise allocate goes on with a null pointer (C70_violation)"
  },
  {
   "property": "C71",
   "status": "partial",
   "theorems": [
    "Verif.Canon.C71_contents",
    "Verif.Canon.C71_order_irrelevant_partial",
    "Verif.Canon.C71_exists",
    "Verif.Canon.C71_lossy",
    "Verif.Canon.C71_violation"
   ],
   "note": "if different types print differently; types are compared by printed name, and of two types with the same name one is dropped (C71_lossy, C71_violation)"
  },
  {
   "property": "C72",
   "status": "proved",
   "theorems": [
    "Verif.ForkJoin.C72_safe",
    "Verif.ForkJoin.C72_branches",
    "Verif.ForkJoin.C72_join",
    "Verif.ForkJoin.C72_lifetime",
    "Verif.ForkJoin.C72_progress"
   ],
   "note": "when_all is used through its contract (C16-C18)"
  },
  {
   "property": "C73",
   "status": "partial",
   "theorems": [
    "Verif.Place.C73_behaviour_partial",
    "Verif.Place.C73_value_partial",
    "Verif.Place.C73_let_violation",
    "Verif.Place.C73_then_violation",
    "Verif.Place.C73_when_all_violation",
    "Verif.Place.C73_sequence_violation",
    "Verif.Place.C73_affine_violation"
   ],
   "note": "all channels for senders without let_* whose user parts claim the same for every channel; the value channel for the Plain form with honest parts; violated by let_*, then, when_all, sequence and affine (witnesses)"
  },
  {
   "property": "C74",
   "status": "partial",
   "theorems": [
    "Verif.Place.C74_value_partial",
    "Verif.Place.C74_inline_violation",
    "Verif.Place.C74_let_violation",
    "Verif.Place.C74_error_violation",
    "Verif.Place.C74_stopped_violation",
    "Verif.Place.C74_sequence_violation",
    "Verif.Place.C74_upon_error_violation"
   ],
   "note": "the value channel of senders in the Plain form; violated by continues_on(inline_scheduler), let_*, sequence, upon_error, and on the error and stopped channels of continues_on (witnesses)"
  },
  {
   "property": "C75",
   "status": "partial",
   "theorems": [
    "Verif.Place.C75_on_returns_partial",
    "Verif.Place.C75_on_runs_there_partial",
    "Verif.Place.C75_on_closure_returns_partial",
    "Verif.Place.C75_on_closure_runs_there_partial",
    "Verif.Place.C75_throw_violation",
    "Verif.Place.C75_closure_violation"
   ],
   "note": "if storing the result to carry back does not throw (C75_throw_violation), and, for the closure form, the predecessor's completion scheduler is right (C75_closure_violation)"
  },
  {
   "property": "C76",
   "status": "partial",
   "theorems": [
    "Verif.Place.C76_affine_partial",
    "Verif.Place.C76_affine_noLet_partial",
    "Verif.Place.C76_exec_task_value_partial",
    "Verif.Place.C76_let_violation",
    "Verif.Place.C76_throw_violation",
    "Verif.Place.C76_error_violation"
   ],
   "note": "if what the sender says about itself is true (it is without let_*), storing its result does not throw, and, for exec::task, for values only (witnesses)"
  },
  {
   "property": "C77",
   "status": "partial",
   "theorems": [
    "Verif.Place.C77_inline_partial",
    "Verif.Place.C77_inline_noLet_partial",
    "Verif.Place.C77_let_violation"
   ],
   "note": "if what the sender says about itself is true (it is without let_*); otherwise the operation state is destroyed while in use (C77_let_violation)"
  },
  {
   "property": "C78",
   "status": "partial",
   "theorems": [
    "Verif.Place.C78_start_scheduler_partial",
    "Verif.Place.C78_sequence_violation",
    "Verif.Place.C78_inline_violation"
   ],
   "note": "for senders in the Traced form; violated by sequence and let_* after a sender that does not name its completion scheduler, and after continues_on(inline_scheduler) (witnesses)"
  },
  {
   "property": "C79",
   "status": "partial",
   "theorems": [
    "Verif.NvMem.C79_aligned_partial",
    "Verif.NvMem.C79_disjoint_partial",
    "Verif.NvMem.C79_inside_partial",
    "Verif.NvMem.C79_returned_partial",
    "Verif.NvMem.C79_succeeds",
    "Verif.NvMem.C79_reuse",
    "Verif.NvMem.C79_violation",
    "Verif.NvMem.C79_huge_violation",
    "Verif.NvMem.C79_leak_violation"
   ],
   "note": "as long as no cudaMalloc failed and for requests below 2^63 bytes, and, for giving back, as long as no push_back threw; all three are violated otherwise (witnesses)"
  },
  {
   "property": "C80",
   "status": "partial",
   "theorems": [
    "Verif.NvQueue.C80_safe_partial",
    "Verif.NvQueue.C80_once",
    "Verif.NvQueue.C80_fifo",
    "Verif.NvQueue.C80_completes",
    "Verif.NvQueue.C80_shutdown_partial",
    "Verif.NvQueue.C80_never_stuck",
    "Verif.NvQueue.C80_uaf_violation",
    "Verif.NvQueue.C80_lost_violation"
   ],
   "note": "no use after free if pushes do not overlap; nothing is lost if the queue is destroyed after all tasks were executed; both are violated otherwise (witnesses); once, order and progress hold with overlapping pushes, in executions that have not yet accessed freed memory"
  },
  {
   "property": "C81",
   "status": "partial",
   "theorems": [
    "Verif.NvBulk.C81_single_partial",
    "Verif.NvBulk.C81_multi_partial",
    "Verif.NvBulk.C81_even",
    "Verif.NvBulk.C81_order",
    "Verif.NvBulk.C81_single_violation",
    "Verif.NvBulk.C81_overflow_violation",
    "Verif.NvBulk.C81_multi_violation",
    "Verif.NvBulk.C81_negative_violation"
   ],
   "note": "order and even shares without restriction; every index once if the shape (per device) is below 2^31 - 257 and, on several devices, shape + 255 fits the shape's type; violated otherwise (witnesses)"
  },
  {
   "property": "C82",
   "status": "partial",
   "theorems": [
    "Verif.NvWhenAll.C82_once",
    "Verif.NvWhenAll.C82_right",
    "Verif.NvWhenAll.C82_value",
    "Verif.NvWhenAll.C82_safe_partial",
    "Verif.NvWhenAll.C82_never_stuck",
    "Verif.NvWhenAll.C82_bounded",
    "Verif.NvWhenAll.C82_uaf_violation",
    "Verif.NvWhenAll.C82_async_violation",
    "Verif.NvWhenAll.C82_null_violation",
    "Verif.NvWhenAll.C82_pending_violation"
   ],
   "note": "once, right result and progress without restriction, where a copy that fails on the GPU counts as garbage delivered as values (C82_async_violation); no use after completion only if no child completes inside the stop callback (C82_uaf_violation); further violations when cudaMallocManaged or a launch fails"
  },
  {
   "property": "C83",
   "status": "partial",
   "theorems": [
    "Verif.NvEnsure.C83_once",
    "Verif.NvEnsure.C83_right",
    "Verif.NvEnsure.C83_value_partial",
    "Verif.NvEnsure.C83_null_partial",
    "Verif.NvEnsure.C83_freed",
    "Verif.NvEnsure.C83_safe_partial",
    "Verif.NvEnsure.C83_detach",
    "Verif.NvEnsure.C83_never_stuck",
    "Verif.NvEnsure.C83_bounded",
    "Verif.NvEnsure.C83_end",
    "Verif.NvEnsure.C83_violated_premature",
    "Verif.NvEnsure.C83_violated_wait",
    "Verif.NvEnsure.C83_violated_null",
    "Verif.NvEnsure.C83_violated_inline",
    "Verif.NvEnsure.C83_violated_race"
   ],
   "note": "once, results (with garbage only after a CUDA failure or a spurious compare-exchange failure), one destruction, detach, progress without restriction; the code completes early on a spurious failure (C83_violated_premature), ignores a failed wait, writes through null when allocation failed, and uses the shared state after its destruction in two stop scenarios (C83_violated_inline, C83_violated_race)"
  },
  {
   "property": "C84",
   "status": "partial",
   "theorems": [
    "Verif.NvSplit.C84_once",
    "Verif.NvSplit.C84_right",
    "Verif.NvSplit.C84_same_partial",
    "Verif.NvSplit.C84_null_partial",
    "Verif.NvSplit.C84_freed",
    "Verif.NvSplit.C84_safe_partial",
    "Verif.NvSplit.C84_never_stuck",
    "Verif.NvSplit.C84_end",
    "Verif.NvSplit.C84_bounded",
    "Verif.NvSplit.C84_violated_status",
    "Verif.NvSplit.C84_violated_null",
    "Verif.NvSplit.C84_violated_inline"
   ],
   "note": "at most one start, one completion per operation, one destruction and progress without restriction; same result for all as long as CUDA does not fail (C84_violated_status otherwise); no use after destruction unless the child completes inside a stop callback (C84_violated_inline)"
  },
  {
   "property": "C85",
   "status": "partial",
   "theorems": [
    "Verif.NvSyncWait.C85_outcome",
    "Verif.NvSyncWait.C85_returns",
    "Verif.NvSyncWait.C85_no_use_after_partial",
    "Verif.NvSyncWait.C85_violated",
    "Verif.NvSyncWait.C85_error_lost"
   ],
   "note": "outcome and return without restriction; no use after return unless synchronising the stream fails after a value or stopped completion, where finish() is called twice (C85_violated); errors that are not CUDA error codes are thrown as cudaErrorUnknown (C85_error_lost)"
  },
  {
   "property": "C86",
   "status": "partial",
   "theorems": [
    "Verif.NvRepeat.C86_result",
    "Verif.NvRepeat.C86_expected_value",
    "Verif.NvRepeat.C86_expected_stops",
    "Verif.NvRepeat.C86_progress",
    "Verif.NvRepeat.C86_terminates",
    "Verif.NvRepeat.C86_one_child",
    "Verif.NvRepeat.C86_stack_partial",
    "Verif.NvRepeat.C86_stack_violated",
    "Verif.NvRepeat.C86_stack_unbounded",
    "Verif.NvRepeat.C86_no_dangling_partial",
    "Verif.NvRepeat.C86_dangling_violated"
   ],
   "note": "count, result, single completion, one child at a time, termination without restriction; the stack grows by one frame per run when runs complete inside start() (C86_stack_violated, C86_stack_unbounded), and a receiver that is not a stream receiver gets a dangling reference for an error that is not a CUDA error code (C86_dangling_violated)"
  },
  {
   "property": "C87",
   "status": "partial",
   "theorems": [
    "Verif.NvStreams.C87_exclusive_partial",
    "Verif.NvStreams.C87_own_partial",
    "Verif.NvStreams.C87_status",
    "Verif.NvStreams.C87_reuse",
    "Verif.NvStreams.C87_destroyed",
    "Verif.NvStreams.C87_not_lost",
    "Verif.NvStreams.C87_rites",
    "Verif.NvStreams.C87_violated",
    "Verif.NvStreams.C87_violated_destroy"
   ],
   "note": "reuse, destruction, priorities, clean-up without restriction; exclusiveness except for the null handle, which a failed creation puts into the pool: it is then lent, with a good status, to several operations at once and destroyed (C87_violated, C87_violated_destroy)"
  },
  {
   "property": "C88",
   "status": "partial",
   "theorems": [
    "Verif.NvChain.C88_result_partial",
    "Verif.NvChain.C88_storage",
    "Verif.NvChain.C88_no_dangling_partial",
    "Verif.NvChain.C88_freed",
    "Verif.NvChain.C88_size_partial",
    "Verif.NvChain.C88_destroyed",
    "Verif.NvChain.C88_no_bad_destroy_partial",
    "Verif.NvChain.C88_never_stuck",
    "Verif.NvChain.C88_terminates",
    "Verif.NvChain.C88_end",
    "Verif.NvChain.C88_violated_destroy",
    "Verif.NvChain.C88_violated_size",
    "Verif.NvChain.C88_violated_dangling"
   ],
   "note": "storage discipline, every allocation freed once, every result destroyed, termination without restriction; the result and the absence of dangling references unless an error reaches upon_error and the stream is not synchronised (C88_violated_dangling); sizes unless the result needs a destructor and is smaller than the largest (C88_violated_size); nothing else destroyed unless launching a then whose result needs a destructor failed (C88_violated_destroy)"
  },
  {
   "property": "C89",
   "status": "partial",
   "theorems": [
    "Verif.Deadline.C89_thread_at",
    "Verif.Deadline.C89_thread_after_partial",
    "Verif.Deadline.C89_thread_after_violated",
    "Verif.Deadline.C89_fallback_at_partial",
    "Verif.Deadline.C89_fallback_at_violated",
    "Verif.Deadline.C89_timespec",
    "Verif.Deadline.C89_uring_after",
    "Verif.Deadline.C89_uring_at_not_early_partial",
    "Verif.Deadline.C89_uring_at_partial",
    "Verif.Deadline.C89_uring_at_late",
    "Verif.Deadline.C89_uring_at_violated",
    "Verif.Deadline.C89_timerfd_partial",
    "Verif.Deadline.C89_timerfd_past_partial",
    "Verif.Deadline.C89_timerfd_early",
    "Verif.Deadline.C89_timerfd_never",
    "Verif.Deadline.C89_timerfd_invalid",
    "Verif.Deadline.C89_win_at_partial",
    "Verif.Deadline.C89_win_after_partial",
    "Verif.Deadline.C89_win_after_rounding_partial",
    "Verif.Deadline.C89_win_early",
    "Verif.Deadline.C89_win_negative",
    "Verif.Deadline.C89_filetime_partial"
   ],
   "note": "exact for the timed thread's schedule_at and io_uring's schedule_after; the rest unless arithmetic overflows; violated by overflow in both fallbacks, io_uring's schedule_at (late), timerfd (early, never, throws), Windows (rounds down, negative durations)"
  },
  {
   "property": "C90",
   "status": "partial",
   "theorems": [
    "Verif.Xorshift.C90_injective",
    "Verif.Xorshift.C90_never_zero",
    "Verif.Xorshift.C90_discard",
    "Verif.Xorshift.C90_periodic",
    "Verif.Xorshift.C90_uniform",
    "Verif.Xorshift.C90_default",
    "Verif.Xorshift.C90_seed_partial",
    "Verif.Xorshift.C90_zero_sticks",
    "Verif.Xorshift.C90_seed_collides",
    "Verif.Xorshift.C90_seed_half"
   ],
   "note": "everything but seeding: the seed 0 is accepted and sticks (C90_zero_sticks), seeding from a random device loses a bit (C90_seed_collides, C90_seed_half)"
  },
  {
   "property": "C91",
   "status": "partial",
   "theorems": [
    "Verif.SchedAll.C91_nexts",
    "Verif.SchedAll.C91_once",
    "Verif.SchedAll.C91_completes_once",
    "Verif.SchedAll.C91_value",
    "Verif.SchedAll.C91_error",
    "Verif.SchedAll.C91_throw",
    "Verif.SchedAll.C91_terminates",
    "Verif.SchedAll.C91_completes",
    "Verif.SchedAll.C91_no_uaf_partial",
    "Verif.SchedAll.C91_uaf_violated"
   ],
   "note": "everything without restriction but the last sentence, which holds for owners that do not destroy the operation state before start has returned and is violated otherwise (C91_uaf_violated)"
  },
  {
   "property": "C92",
   "status": "proved",
   "theorems": [
    "Verif.WmWhenAll.C92_no_race",
    "Verif.WmWhenAll.C92_once",
    "Verif.WmWhenAll.C92_no_uaf",
    "Verif.WmWhenAll.C92_result",
    "Verif.WmWhenAll.C92_order_needed"
   ],
   "note": "stop callbacks that begin after the last child arrived are excluded here (they are C16's double completion)"
  },
  {
   "property": "C93",
   "status": "partial",
   "theorems": [
    "Verif.WmRefs.C93_no_race",
    "Verif.WmRefs.C93_once",
    "Verif.WmRefs.C93_last",
    "Verif.WmRefs.C93_not_early",
    "Verif.WmRefs.C93_destroyed",
    "Verif.WmRefs.C93_order_needed"
   ],
   "note": "proved for acquire-release decrements (intrusive_ptr, when_any, async_scope); violated by the relaxed decrements of schedule_all and timed_thread_scheduler (C93_order_needed)"
  },
  {
   "property": "C94",
   "status": "partial",
   "theorems": [
    "Verif.WmStop.C94_no_race",
    "Verif.WmStop.C94_no_race_partial",
    "Verif.WmStop.C94_no_uaf",
    "Verif.WmStop.C94_once",
    "Verif.WmStop.C94_registration",
    "Verif.WmStop.C94_deregistration",
    "Verif.WmStop.C94_request",
    "Verif.WmStop.C94_inline_violated",
    "Verif.WmStop.C94_orders_needed"
   ],
   "note": "everything but the last case: a callback executed by its own constructor is not synchronised with request_stop, because the load that finds stop requested is relaxed (C94_inline_violated); with an acquire load there everything holds (C94_no_race, C94_request)"
  },
  {
   "property": "C95",
   "status": "proved",
   "theorems": [
    "Verif.WmQueue.C95_no_race",
    "Verif.WmQueue.C95_once",
    "Verif.WmQueue.C95_pushed",
    "Verif.WmQueue.C95_complete",
    "Verif.WmQueue.C95_order",
    "Verif.WmQueue.C95_orders_needed"
   ],
   "note": "a release CAS to push and an acquire read-modify-write to take the list suffice, and both are needed; prepend (a chain at once) is not modelled here (see the sequentially consistent models)"
  },
  {
   "property": "C96",
   "status": "proved",
   "theorems": [
    "Verif.WmMpsc.C96_no_race",
    "Verif.WmMpsc.C96_no_uaf",
    "Verif.WmMpsc.C96_fifo",
    "Verif.WmMpsc.C96_once",
    "Verif.WmMpsc.C96_pushed",
    "Verif.WmMpsc.C96_effect",
    "Verif.WmMpsc.C96_not_lost",
    "Verif.WmMpsc.code_good",
    "Verif.WmMpsc.C96_orders_needed"
   ],
   "note": "for the orders in the code (code_good); the exchange must be acq_rel, the link store release, the link loads acquire (C96_orders_needed); the orders of the load of the head and of the clearing store do not matter"
  },
  {
   "property": "C97",
   "status": "proved",
   "theorems": [
    "Verif.WmAwait.C97_no_race",
    "Verif.WmAwait.C97_once",
    "Verif.WmAwait.C97_completed",
    "Verif.WmAwait.C97_resumer_knows",
    "Verif.WmAwait.C97_no_use_after",
    "Verif.WmAwait.C97_resumed",
    "Verif.WmAwait.C97_progress",
    "Verif.WmAwait.code_good",
    "Verif.WmAwait.C97_orders_needed"
   ],
   "note": "for the orders in the code (code_good): release at :347, acquire at :294 and :301, each needed (C97_orders_needed); the orders of the load at :282 and the store at :289 do not matter. Progress assumes loads in the loop eventually read the newest value"
  },
  {
   "property": "C98",
   "status": "proved",
   "theorems": [
    "Verif.WmLoop.C98_no_race",
    "Verif.WmLoop.C98_no_use_after",
    "Verif.WmLoop.C98_drained",
    "Verif.WmLoop.C98_not_more",
    "Verif.WmLoop.C98_wakes",
    "Verif.WmLoop.C98_returns",
    "Verif.WmLoop.code_good",
    "Verif.WmLoop.C98_orders_needed"
   ],
   "note": "for the orders in the code (code_good); six of the ten are needed (C98_orders_needed), the other four may be anything. Excluded, as in the statement: the notification that ends the push of an operation, which nothing protects (C09_start_false)"
  },
  {
   "property": "C99",
   "status": "proved",
   "theorems": [
    "Verif.WmScope.C99_no_race",
    "Verif.WmScope.C99_no_use_after",
    "Verif.WmScope.C99_no_terminate",
    "Verif.WmScope.C99_join",
    "Verif.WmScope.C99_completes",
    "Verif.WmScope.code_good",
    "Verif.WmScope.C99_orders_needed"
   ],
   "note": "for the orders in the code (code_good); seven weakenings are shown to break it (C99_orders_needed); the orders of close, of the successful association, of setting the joining bit and of the destructor may be anything. Not modelled: an association attempt that fails (it changes nothing)"
  },
  {
   "property": "C100",
   "status": "proved",
   "theorems": [
    "Verif.Numa.C100_policy",
    "Verif.Numa.C100_policy_count",
    "Verif.Numa.C100_policy_range",
    "Verif.Numa.C100_policy_zero",
    "Verif.Numa.C100_turns",
    "Verif.Numa.C100_enqueue",
    "Verif.Numa.C100_enqueue_any",
    "Verif.Numa.C100_victims"
   ],
   "note": "a machine for which libnuma reports no processor makes the policy divide by zero (C100_policy_zero); a turn is counted while the 64-bit counter does not wrap; bulk_enqueue with constraints, which ignores them unless the caller is on an allowed node, is not modelled (nothing calls it with any)"
  },
  {
   "property": "C101",
   "status": "partial",
   "theorems": [
    "Verif.Domain.C101_phases",
    "Verif.Domain.C101_indeterminate",
    "Verif.Domain.C101_unchanged",
    "Verif.Domain.C101_finite",
    "Verif.Domain.run_decl",
    "Verif.Domain.C101_throw_partial",
    "Verif.Domain.C101_throw_false",
    "Verif.Domain.C101_not_again"
   ],
   "note": "the last sentence holds only if transformations that change the type do not throw (C101_throw_partial): __get_declfn computes the conjunction of the noexcepts of the steps and then declares that of the last step alone, so that, for instance, an exception thrown while `on` copies its child ends the program (C101_throw_false). After the second phase the domain of completion is not asked again (C101_not_again)"
  },
  {
   "property": "C102",
   "status": "proved",
   "theorems": [
    "Verif.Owned.C102_once",
    "Verif.Owned.C102_owner",
    "Verif.Owned.C102_no_leak",
    "Verif.Owned.C102_move",
    "Verif.Owned.C102_bool",
    "Verif.Owned.C102_reset_self",
    "Verif.Owned.C102_setup",
    "Verif.Owned.C102_regions",
    "Verif.Owned.C102_setup_code",
    "Verif.Owned.C102_setup_code_violated"
   ],
   "note": "reset assumes a descriptor that the object does not own already: resetting an object to its own descriptor closes it and keeps it (C102_reset_self). Beyond the claim: the code of the exception is the error of the failing call (C102_setup_code), except that a failing io_uring_setup is always reported as EPERM (C102_setup_code_violated)"
  },
  {
   "property": "C103",
   "status": "proved",
   "theorems": [
    "Verif.IoRing.C103_fifo",
    "Verif.IoRing.C103_bound",
    "Verif.IoRing.C103_no_overwrite",
    "Verif.IoRing.C103_no_early_read",
    "Verif.IoRing.C103_stops_empty",
    "Verif.IoRing.C103_room"
   ],
   "note": "the kernel is assumed to follow the same protocol on its side"
  },
  {
   "property": "C104",
   "status": "partial",
   "theorems": [
    "Verif.NvLet.C104_completion_partial",
    "Verif.NvLet.C104_function_partial",
    "Verif.NvLet.C104_sender_partial",
    "Verif.NvLet.C104_storage_partial",
    "Verif.NvLet.C104_arguments_partial",
    "Verif.NvLet.C104_launch_violated",
    "Verif.NvLet.C104_arguments_violated",
    "Verif.NvLet.C104_size_violated"
   ],
   "note": "proved if the kernel is accepted; a launch that is refused is not noticed and an unconstructed sender is connected (C104_launch_violated). The values are not copied: an error in a variable of the caller is read on the device and dangles later (C104_arguments_violated). The storage is deallocated with the size of the sender instead of the size allocated (C104_size_violated)"
  },
  {
   "property": "C105",
   "status": "partial",
   "theorems": [
    "Verif.NvTransfer.C105_to",
    "Verif.NvTransfer.C105_storage",
    "Verif.NvTransfer.C105_side_partial",
    "Verif.NvTransfer.C105_side_violated",
    "Verif.NvTransfer.C105_from",
    "Verif.NvTransfer.C105_free_partial",
    "Verif.NvTransfer.C105_task_violated"
   ],
   "note": "completions and storage without restriction; objects constructed on the host are destroyed on the device unless somebody prefetches them to the host (C105_side_violated; otherwise C105_side_partial). The task leaks if a schedule_from operation is not started, or if any of these operations is started after its set-up failed behind the task (C105_task_violated); in the other cases everything is freed once (C105_free_partial)"
  },
  {
   "property": "C106",
   "status": "proved",
   "theorems": [
    "Verif.Holder.C106_lifetimes",
    "Verif.Holder.C106_contents",
    "Verif.Holder.C106_throwing_emplace",
    "Verif.Holder.C106_owner_destroyed_inside",
    "Verif.Holder.C106_void",
    "Verif.Holder.C106_reentrant_reset_destroys_twice"
   ],
   "note": "for every sequence of calls. Not part of the claim: an object whose destructor calls reset() on the optional that holds it is destroyed twice (C106_reentrant_reset_destroys_twice)"
  },
  {
   "property": "C107",
   "status": "partial",
   "theorems": [
    "Verif.Holder.C107_from_list",
    "Verif.Holder.C107_erase_partial",
    "Verif.Holder.C107_append",
    "Verif.Holder.C107_erase_returns_end"
   ],
   "note": "contents proved without restriction; erase returns end() instead of the position after the last element removed (C107_erase_returns_end)"
  },
  {
   "property": "C108",
   "status": "partial",
   "theorems": [
    "Verif.Create.C108_called_once",
    "Verif.Create.C108_completes_as_the_function_does",
    "Verif.Create.C108_gone_once",
    "Verif.Create.C108_state_partial",
    "Verif.Create.C108_void_may_complete_inline",
    "Verif.Create.C108_inline_completion_violated",
    "Verif.Create.C108_connect"
   ],
   "note": "proved unless a function that returns something completes its receiver before it returns and the owner destroys the operation then: the result is written into memory that has gone (C108_inline_completion_violated)"
  },
  {
   "property": "C109",
   "status": "partial",
   "theorems": [
    "Verif.Create.C109_sink_partial",
    "Verif.Create.C109_throws_before_sink",
    "Verif.Create.C109_terminates_iff",
    "Verif.Create.C109_declared",
    "Verif.Create.C109_throws_after_sink_violated"
   ],
   "note": "proved unless the function throws after it has called the sink: then the receiver is completed a second time (C109_throws_after_sink_violated)"
  },
  {
   "property": "C110",
   "status": "partial",
   "theorems": [
    "Verif.MultiGpu.C110_peers_partial",
    "Verif.MultiGpu.C110_current_device",
    "Verif.MultiGpu.C110_failing_device_violated",
    "Verif.MultiGpu.C110_scheduler_equality",
    "Verif.MultiGpu.C110_completes_partial",
    "Verif.MultiGpu.C110_not_started",
    "Verif.MultiGpu.C110_stream_partial",
    "Verif.MultiGpu.C110_stream_violated",
    "Verif.MultiGpu.C110_launch_violated"
   ],
   "note": "access proved if every device can be made current; otherwise it is asked for the wrong device (C110_failing_device_violated). Operations proved if the stream is created and the kernel accepted: a stream that was not created is destroyed (C110_stream_violated), a kernel that is refused is not noticed (C110_launch_violated)"
  },
  {
   "property": "C111",
   "status": "partial",
   "theorems": [
    "Verif.NvReduce.C111_completion",
    "Verif.NvReduce.C111_empty",
    "Verif.NvReduce.C111_split",
    "Verif.NvReduce.C111_result",
    "Verif.NvReduce.C111_waits",
    "Verif.NvReduce.C111_temp_partial",
    "Verif.NvReduce.C111_temp_violated"
   ],
   "note": "proved without restriction but for the temporary storage, which leaks if the reduction is refused after it has been allocated (C111_temp_violated)"
  },
  {
   "property": "C112",
   "status": "proved",
   "theorems": [
    "Verif.ConnectCpo.C112_choice",
    "Verif.ConnectCpo.C112_documented_order",
    "Verif.ConnectCpo.C112_return_type",
    "Verif.ConnectCpo.C112_noexcept_sound",
    "Verif.ConnectCpo.C112_noexcept_complete",
    "Verif.ConnectCpo.C112_awaitable_may_throw",
    "Verif.ConnectCpo.C112_transform_throws"
   ],
   "note": "for every combination of the four ways"
  },
  {
   "property": "C113",
   "status": "proved",
   "theorems": [
    "Verif.Pipe.C113_value",
    "Verif.Pipe.C113_parentheses",
    "Verif.Pipe.C113_associative",
    "Verif.Pipe.C113_lvalue_reusable",
    "Verif.Pipe.C113_rvalue_moves",
    "Verif.Pipe.C113_no_moved_argument"
   ],
   "note": "for every pipeline; exceptions of copies and moves are not modelled"
  },
  {
   "property": "C114",
   "status": "partial",
   "theorems": [
    "Verif.NvVariant.C114_visit",
    "Verif.NvVariant.C114_alive",
    "Verif.NvVariant.C114_no_leak_partial",
    "Verif.NvVariant.C114_no_double_partial",
    "Verif.NvVariant.C114_ep_never_ended",
    "Verif.NvVariant.C114_ep_leaks",
    "Verif.NvVariant.C114_construct_over",
    "Verif.NvVariant.C114_copy_double",
    "Verif.NvVariant.C114_visit_index",
    "Verif.NvVariant.C114_fits"
   ],
   "note": "proved for all types but the tuple with an exception_ptr, which the code never destroys (C114_ep_leaks), and for histories in which construct is used only on an empty variant (C114_construct_over) and no copy is made: the copy constructor is not deleted and a copy destroys the object a second time (C114_copy_double)"
  },
  {
   "property": "C115",
   "status": "partial",
   "theorems": [
    "Verif.Nvtx.C115_order",
    "Verif.Nvtx.C115_push_pop",
    "Verif.Nvtx.C115_transparent",
    "Verif.Nvtx.C115_scoped_transparent",
    "Verif.Nvtx.C115_balanced_partial",
    "Verif.Nvtx.C115_covered_partial",
    "Verif.Nvtx.C115_thread_violated",
    "Verif.Nvtx.C115_again_violated"
   ],
   "note": "order and transparency for every closure; the balance of the stacks and the cover for closures that run their sender once and stay on the thread: for others the code violates it (C115_thread_violated, C115_again_violated)"
  }
 ]
}