# Formal model of NVIDIA/stdexec in Lean 4 — design

This file is generated by `tools/mkdesign.py` from `tools/design.in.md` and the manifest.

## Method

* Each subsystem is one directory under `lean/Verif/`: `X/Model.lean` (definitions, each citing the
  `/repo` file and lines it models, and saying what is simplified), `X/Inv*.lean`, `X/Lemmas.lean`,
  `X/Step*.lean` (invariants and helper lemmas), `X/Props.lean` and `X/Progress.lean` (specification
  vocabulary, property theorems, and the concrete executions that meet their hypotheses).
* Sequential / pure code is modelled by total functions (heap, queues, sender algebra, `even_share`,
  environments). Pointer structures are modelled with an explicit memory where the pointers matter
  (C10, C11, C12, C46, C40's parent links).
* Concurrent code is modelled by an interleaving transition system: a state with one program counter
  (or call stack) per thread, and a partial `step : State → Action → Option State` whose steps are the
  individual atomic accesses of the code. Numbers of threads, tasks, callbacks, children, sizes are
  unbounded. Safety properties quantify over every state reachable by any finite action list
  (`Reach init step s`); progress properties say that runs of the program's own steps are bounded and
  that a state in which nothing can step is a finished one (so every fair schedule finishes).
* Ghost fields (logs, `life`, `ub`, `uaf*`, `fault`, `dead` flags) record observable events and misuse;
  they never influence the program's control flow.
* Use-after-free / undefined behaviour is modelled as a flag set by the step that touches the dead
  object, and theorems say that the flag is never set.
* Where the code violates the wanted property, the violation is proved by a concrete reachable witness
  (`…_false`, `…_double_completion`, …), and the property is proved under the weakest hypothesis I could
  identify, in a theorem with suffix `_partial`. The full property statement stays in
  `properties.jsonl`.
* The memory model is sequentially consistent, except in the `Wm…` modules, which are about the C++ memory model.

## Properties

| id | property | status | note |
|----|----------|--------|------|
@TABLE@

No property in the list is inexpressible in a model.

## What is modelled, and what is not

**Stop tokens.** `StopSource` (C01–C04, C48): `stdexec/stop_token.hpp`, `inplace_stop_source` and
`inplace_stop_callback`, per-thread call stacks so that callbacks may re-enter the API. One step per atomic
access; the doubly linked callback list is a `List`. Not modelled: `never_stop_token`, `std::stop_token`
interop, spin-wait back-off. `StopWhen` (C05): `__stop_when.hpp` on top of the contract of C02–C04.

**Queues and containers.** `IQueue` (C10): `__intrusive_queue.hpp` at pointer level, including iterators and
`splice`. `AtomicQueue` (C11): both atomic intrusive queues at pointer level. `Mpsc` (C12):
`__intrusive_mpsc_queue.hpp` at pointer level. `SList` (C46): `__intrusive_slist.hpp`. `Heap` (C40):
`exec/detail/intrusive_heap.hpp`, child links as a tree, parent links explicit. `Variant` (C43):
`__variant.hpp` over a heap of objects. `Bwos` (C39): `exec/detail/bwos_lifo_queue.hpp`, every atomic access
a step; block counters are unbounded numbers.

**run_loop / sync_wait.** `RunLoop` (C06–C09): `__run_loop.hpp` with the queue abstracted to an atomic list
(justified by C11) and `notify_one`/`wait` as separate steps. `SyncWait` (C34): `__sync_wait.hpp` composed
with the run_loop model.

**Scopes.** `Scope` (C13–C15): `__counting_scopes.hpp`, compare-exchange loops step by step, packing of count
and state bits proved separately on bit vectors. `AsyncScope` (C24) and `AsyncFuture` (C47):
`exec/async_scope.hpp`. `SpawnFuture` (C20, C21): `__spawn_future.hpp`. Not modelled: allocator failure,
`spawn`'s detached receiver beyond C24.

**Fan-in / fan-out.** `WhenAll` (C16–C18), `WhenAny` (C19), `Shared` (`split`, `ensure_started`; C22, C23).
The receiver's stop token is modelled by the callback contract of C02–C04.

**Sender algebra.** `Sender` (C25–C33, C45): a deep embedding of sender expressions — `just*`, `read_env`,
arbitrary leaves, `schedule`, `then`/`upon_*`, `let_*`, `continues_on`, `starts_on`, `finally`,
`materialize`/`dematerialize`, `into_variant`, `stopped_as_*`, `repeat_n`, `repeat_until`, `sequence`, `bulk`,
environment adaptors — with the run-time behaviour of the receivers the adaptors install, declared completion
signatures, exceptions from user functions and copies, and `std::terminate`. Not modelled: overload
resolution and customization (domains), coroutines, throwing moves.

**Environments.** `Env` (C35): `env`, `prop`, joins, forwarding; overload viability is a total function.

**Thread pool.** `Bulk` (C36, C37): `even_share` on machine integers and the bulk agents. `PoolSleep` (C38): one
worker with its remote, pending and local queues, sleep and notification. `Pool` (C51): any number of such workers,
sharing the list of remote queues and stealing from one another. `Bwos` (C39) is its deque.
Not modelled: NUMA policy, allocation, victim choice (left to the environment).

**Type-erased values.** `AnyBox` (C52): `__any<Interface>` storage -- the tagged word, in-buffer and heap models,
all special member functions, `emplace`, `swap`, slicing conversions; exceptions from constructors and allocation.
Not modelled: the constant-evaluation branches, type-erased references and pointers, the virtual interface itself.

**Awaiting senders.** `Awaiter` (C53): `as_awaitable`'s `__sender_awaiter`: `await_suspend`, the receiver's `__done`,
the atomic `__thread_id_`, and the coroutine that destroys the awaiter after `await_resume`; any number of awaits.
Proof: an invariant giving the possible joint states of the two parties while the coroutine is suspended, plus a
measure for progress. Not modelled: the MSVC branch, the statically-inline awaiter, other coroutine promises.

**io_uring.** `Uring` (C55): `exec::io_uring_context`, statement by statement for the driving thread (the four calls of
`complete`, both loops of `submit`, the close protocol), submissions in four steps, `request_stop` and `finish` in two,
the kernel as submission ring / in-progress set / completion ring with partial submission, any completion order and
signals, and the eventfd. Proof: a resource invariant that locates every operation (`InvO`, no discipline needed), a
second invariant under "driven once per construction or `reset`" (`InvD`: ring sizes, where the wake-up operation is, who
announced what), termination of internal steps by a lexicographic measure, and an analysis of the stuck states. Not
modelled: the memory model (the close CAS and the decrement of the in-flight counter are `relaxed`, which does not order
the push before the final `pop_all`), `io_uring_enter` errors, memory mapping, the descriptors.
`UringOp` (C56): one stoppable I/O operation with its stop operation, both stop callbacks and the counter `__n_ops_`, the
context reduced to "takes from the queue in any order"; proof by an invariant that equates `__n_ops_` with the parties
holding the operation, plus a decreasing measure.

**Work in a scope.** `Associate` (C57): `associate` (its data, all constructors, its operation) and `spawn` as programs
over the list of effects each call has on the scope and on the protected objects, in C++ destruction order, with an
exception possible wherever the code can throw. Proof: an accounting invariant (sums over the program's variables). The
scope is a count and a flag (its bits and joins: C13-C15).

**Asio.** `Asio` (C59): `exec/asio/completion_token.hpp`: the operation state with its recursive mutex, frame chain, first exception,
abandonment flag and stop callback; any number of threads, each with a call stack of activation records; Asio and the
initiating function choose freely who runs, throws, invokes or drops the handler, and when. Invariant by phases of the operation.
The theorems assume a contract on the user (`Ok`), each clause of which is shown necessary. Not modelled: `use_sender`'s mapping of error
codes, the conversion of values, `asio_thread_pool`.

**Parallel bulk.** `ParSched` (C60): the front ends of `bulk` on `parallel_scheduler` and `task_scheduler` (how many items they ask for, what
one `execute` invokes, what happens to exceptions), the chunk arithmetic of the default back end in `size_t` (modulo 2^64), and a run in
which the back end makes its `execute` calls in any order and overlap. Coverage counted per index; termination by a measure. Not
modelled: the stored values.

**Scheduler operations.** `ParOp` (C62): the storage of the operation states of `parallel_scheduler` and `task_scheduler` and what lives in it
from connect to destruction, with a stop request at any point; one call is one step, because one thread at a time uses an operation state.
`__ensure_alignment` on 64-bit vectors.

**Windows pool.** `WinPool` (C63): one cancellable operation (work item or timer; they follow the same protocol), one step per access to the
shared flags, three threads. The pool is modelled by its documentation: a submitted callback may start at any time, waiting with
`cancelPending` removes one that has not started. Not modelled: failing Windows API calls, the thread pool's clean-up, `bulk`.

**Eagerly started work.** `StartNow` (C64): any number of children and `async_wait` operations, one step per access to the shared words. `Detached`
(C65): one operation of `start_detached`, all kinds of `submit_result`, every call may throw, completion at any moment.

**Type-erased senders.** `AnySender` (C67): the stop-token translation of `any_sender`'s operation state with an arbitrary child; the box that holds the erased
operation is `AnyBox` (C52). Not modelled: type-erased queries.

**Bulk on other pools.** `PoolBase` (C68): `thread_pool_base`'s task protocol is the one of `static_thread_pool`, so `Verif.Bulk`'s
transition system is reused; the number of tasks is computed on machine integers of the shape type. `Dispatch` (C69): `libdispatch_queue`, one
task per index, 32-bit counters, the submission loop as its own thread. The libraries underneath run every accepted task once.

**exec::function.** `MemRes` (C70): byte-addressed memory, the adaptor's allocate/deallocate on top of an arbitrary byte allocator, users that write
any bytes into their blocks; invariant: the hidden pointer behind each block is the buffer's address. `Canon` (C71): sort + unique of type lists, types
compared by printed name; any sorted permutation is allowed as result of the sort.

**fork_join.** `ForkJoin` (C72): lifetimes of the predecessor's operation, the cached result and the branches, with an arbitrary predecessor and branches.

**Where senders complete.** `Place` (C73–C78): sender expressions as a syntax tree (`S`) with arbitrary user senders as leaves and an arbitrary
scheduler per execution context; `attrs` computes what the senders answer to `get_completion_scheduler<Tag>` and `__get_completion_behavior<Tag>`,
`Runs` says, independently, on which channel, on which context and whether inside `start` they complete. The properties relate the two, by induction
on the sender. Simplified: values, `get_completion_domain`, several continuations of `let_*`, schedulers that name another scheduler as theirs.

**nvexec.** `NvMem` (C79): the memory resources of the stream context as a state machine over byte addresses (blocks obtained from CUDA,
bump pointer, blocks in use, cached blocks); CUDA's allocation function and the containers may fail at every call. `NvQueue` (C80): the list through
which device code hands continuations to the polling thread, one atomic access per step, with freed memory tracked per node and a flag raised by any
access to a freed node. Kernels are not modelled: a producer is a thread that executes `producer::operator()`.

`NvBulk` (C81): the index arithmetic of both bulk kernels over mathematical integers with C++'s conversions written out (any width and signedness of the
shape), and the streams and events of the multi-device version as sets of work known to be finished.

`NvWhenAll` (C82): the operation of `when_all` on streams, one atomic access or CUDA call per step, with the GPU as an agent that executes the copy kernels
late or fails to, and the stop callback as an agent inside which children may complete.

**GPU ensure_started and split.** `NvEnsure` (C83) and `NvSplit` (C84): shared state and operations of
`ensure_started.cuh` and `split.cuh`, one atomic access, CUDA call, call of the stop source or completion per step, with
the GPU and the receivers' stop callbacks as agents. `NvSplit` has any number of operations; `compare_exchange_weak` may
fail spuriously in both. Proved by invariants (who is in the list, who holds a reference, what the memory contains) and
a measure on the steps left.

**GPU sync_wait and repeat_n.** `NvSyncWait` (C85): receiver and waiting function of `sync_wait.cuh` over the `run_loop`
model; proved from C07 and C09 of the loop. `NvRepeat` (C86): `repeat_n.cuh`, one call of `_complete` per step, with the
depth of the stack and the lifetime of the arguments given to the delivering kernel as ghost state; the result is compared
with a recursive specification.

**GPU streams and chains.** `NvStreams` (C87): the three pools (LIFO lists of handles), borrowing by providers, rites,
shutdown; a handle is a number, 0 the null handle; the creation of streams may fail at any time (adversary). Invariant: the
location of every stream is a function (none / pooled / lent to p / destroyed) that agrees with the pools and the providers.
`NvChain` (C88): the host walks the chain of receivers, enqueuing kernels that refer to storage of earlier stages or to a
host-stack variable; the device runs them in order at any time. Which launches and allocations fail is part of a fixed
configuration; the result is compared with a recursive specification `expected`.

**Deadlines, random numbers, schedule_all.** `Deadline` (C89): the due time each timed scheduler computes, as functions of the
times of call, connect and start over `Int`, with `none` for signed overflow, against the specification `dueAt`/`dueAfter`.
`Xorshift` (C90): the generator over `BitVec 64`; injectivity of `x ^ (x << k)` by induction over bits, periodicity by a
pigeonhole lemma. `SchedAll` (C91): the starting thread, the pool and late starters as actors around `start_mutex_`; invariant on
the place of every item, countdown = number of unfinished items; termination by a measure. `Numa` (C100): the policy over running
totals of processors against the list of the nodes of all processors; the pool's table is any sorted permutation, so positions found by
binary search are lengths of filters; a round of the counter is a permutation of the residues. `Domain` (C101): `transform_sender` over abstract
senders, types and transformations, the declaration and the execution by recursion on the depth; the specification is a chain of steps. `Owned` (C102): the two handle classes function
by function, a program as a transition system over any number of objects, the log of system calls; the constructor of the io_uring context as a
function of the answers of the machine. `IoRing` (C103): the ring with 32-bit indices, stale loads as a choice among the stores not older than
the last one read; invariant with ghost counters. `NvLet` (C104): the GPU `let_*` as the list of its effects, a function
of everything that the machine, the function and the two senders may do. `NvTransfer` (C105): the same for the receiver of
`continues_on` and for the operation state of `schedule_from`. `Holder` (C106, C107): the storage of `__optional`
and of `__static_vector` with what is alive in it, and a mark for whatever would be undefined. `Create` (C108, C109): an operation as
the list of what it does, for any function and any owner. `MultiGpu` (C110): the loops
of the context's constructor over any number of devices, and an operation as a list of events. `NvReduce` (C111): the receiver of
`reduce` as a list of events, for any five results of the runtime; `cub::DeviceReduce::Reduce` is taken at its word. `ConnectCpo` (C112): the
compiler's choice among the partial specializations behind `connect`, by subsumption of constraints, against the chain of `if constexpr`. `Pipe`
(C113): expressions of closures and senders, evaluated, with what is left of each closure. `NvVariant`
(C114): histories of a variant, as the list of what is made, visited and destroyed. `Nvtx`
(C115): senders of five kinds of steps, run, and the stacks of NVTX as its documentation has them.

**The C++ memory model.** `WM` is a view machine in the style of the promise-free "promising" semantics (no out-of-thin-air reads,
no load buffering): every atomic location has a history of messages with timestamps; a message carries the view of its writer
if it was written with release (or continues a release sequence); a thread has a view (newest timestamp seen per location and the
set of logged accesses known to happen before); a load may return any message not older than the view; acquire joins the message's
view. Non-atomic (and destruction) accesses are logged; an access that conflicts with a logged one the thread does not know is a
race, recorded in a flag. Release-acquire fragment and relaxed accesses only: no fences, no seq_cst order (seq_cst accesses are
modelled as acq_rel, which allows more behaviours). `WmWhenAll` (C92), `WmRefs` (C93): the memory orders of the code are
parameters; the theorems say which orders suffice and that weaker ones do not. Invariants say which accesses the newest message of
a location knows. `WmStop` (C94): the steps are abstracted to a transition system on control states (`Tr`) with memory effects
(`MemK`); the invariant has six parts (control, lock word, log, knowledge under the lock, knowledge at destruction, user data),
each preserved by itself. `WmQueue` (C95): the invariant relates the newest message of the head to the chain of links it starts, and
says that message knows every write to a node of that chain. `WmMpsc` (C96): the queue is the sequence of the messages of the
head (ghost `seq`), the tail a position in it; three invariants (positions, links, knowledge), each preserved by itself; for progress
`WM/Wf` shows that views point to existing messages, so that newest messages can always be read. `WmAwait` (C97): the handshake of `await_suspend` and `__done` over
`__thread_id_`; invariant in three parts (control, values of the id, knowledge), a measure for progress. `WmLoop` (C98): `run`,
`finish` and `start` over the count, the flag and the length of the queue; the count is changed by read-modify-writes only, so its newest
value is exact, and no message from the one in which `finish` counted up to the newest is zero; a measure for progress. `WmScope` (C99):
the counting scope over its bits and the head of its list of join operations; the newest value of the bits is the count with the three
flags, every message from the one that made it joined on has the value 1, and every thread that acts on the join has seen that message;
a measure for progress.

**Connected awaitables.** `ConnAwait` (C66): the operation state, with an arbitrary awaitable; objects are tracked by a log of constructions and
destructions. Not modelled: the layout trick that makes the operation state look like a coroutine frame.

**Backend singleton.** `Backend` (C61): `__instance_data`, one step per access, any number of threads. Not modelled: the reference counts of
the instances.

**Coroutine exit.** `Coro` (C58): `exec::task` coroutines as cells of a heap linked by continuation addresses: bodies (HOAS
terms: code, leaf senders with any outcome, nested tasks with handlers, exit actions which may be tasks, reschedules), the
splicing of cleanup coroutines, the unwinding by `unhandled_stopped`, frame destruction. A direct-style specification
(`Spec.lean`, no frames and no continuations) gives the expected trace, outcome and context; by induction on the body the
machine reaches exactly that, with an empty heap. Not modelled: stop tokens (C53, C54), allocation failure, tasks with a
context that is not scheduler-affine.

**Tasks.** `Task` (C54): `stdexec::task` with its awaiter, completed-awaiter, stop-token translation, `affine` on every
awaited sender, cancellation through `unhandled_stopped`, and the operation state of the root. Bodies are interaction
trees (any branching, any depth, a call awaits another task); the specification `den` reads them as structured code.
Proof: invariant over the chain of suspended coroutines, where what remains to be done, as a function of future events,
always equals the denotation of the whole program; progress by a well-founded order on (body, continuation stack).
Not modelled: frame allocation, environments and local variables; a sender's own protocol (C53).

**Timed context.** `Timed` (C41): `exec/timed_thread_scheduler.hpp`, any number of operations, a monotone clock.

**Reference counting.** `IntrusivePtr` (C50): `__intrusive_ptr.hpp`, all operations including self-assignment, release,
manual counting and the reserved bits; destructors may call back. Not modelled: wrap-around of the count, weak memory.

**Trampoline.** `Trampoline` (C42): `exec/trampoline_scheduler.hpp`.

**Sequences.** `Sequence` (C44): `iterate`, `transform_each`, `ignore_all_values`. `MergeEach` (C49): the whole of
`merge_each` at the granularity of its atomics, any number of nested sequences and values; the children are assumed to
follow the sequence-sender contract; the type computations (`__compute`) are not modelled.

Not modelled at all: GPU back-ends (`nvexec`), libdispatch / TBB contexts, the rest of the Windows code, CMake.

## Divergences of the code from the wanted properties (all with machine-checked witnesses unless noted)

1. `when_all` / `when_any`: a stop request between the last arrival and the reset of the stop callback completes
   the receiver twice (`C16_double_completion`, `C19_double_completion`).
2. `when_any`: a stop request arriving before the last child replaces the winner's stored result by stopped
   (`C19_stop_beats_result`).
3. `spawn_future`: work completing inline inside the stop request frees the state under the canceller
   (`C21_false`).
4. `run_loop`: the trailing `notify_one` of `start()` may touch a loop that was destroyed after `run()` returned
   (`C09_start_false`).
5. Counting scopes: with two joins, the first completion may destroy the scope while the second is still being
   handled (`C15_false`).
6. `split` / `ensure_started`: two concurrent detaches can both fail to request stop (`C23_false`).
7. `__intrusive_queue::splice` is wrong for a proper prefix, a suffix and the front (`C10_splice_*_false`); its
   only caller is in a case where it is right (`C10_splice_prefix_other`).
8. `async_scope::spawn_future`: the stop request of the future's receiver never reaches the work
   (`C47_stop_false`, `C47_stop_never_reaches`); defaulted move assignment deletes running work
   (`C47_assign_false`); destruction racing with a stop request uses freed state (`C47_drop_false`).
9. `async_scope::when_empty`: an operation nested between the release of a waiter and the waiter running is not
   waited for (by design; see `C24_before`).
10. `finally`: skips the final sender if storing the result throws (`finally_skips_final`), terminates if connecting
    throws (`finally_terminates`), and can complete with undeclared signatures (`finally_undeclared`).
11. `continues_on`: a throw while storing the result is delivered on the wrong context
    (`continues_on_wrong_context`).
12. `repeat_until` / `repeat_n(s, 0)`: undeclared completions (`repeat_until_undeclared`, `repeat_n_undeclared`).
13. `timed_thread_context`: commands still queued at shutdown are lost (`C41_shutdown_false`,
    `C41_shutdown_stop_false`, `C41_lost_forever`); a stop that overtakes the schedule command is ignored until the
    deadline (`C41_stop_overtakes_false`); a lost wake-up can delay a due operation (`C41_wakeup_false`).
14. `__intrusive_mpsc_queue`: waking only when the queue was empty loses wake-ups (`C12_wakeup_false`).
15. `__variant` copy/move go by type, so the active index changes with duplicate types (`C43_copy_false`).
16. `ignore_all_values`: an item's error is lost when the sequence itself completes stopped (`C44_error_lost`).
17. `static_thread_pool`: a task submitted before `request_stop` can be dropped and never completes
    (`C38_stop_drops`, and for the whole pool `C51_stop_drops`, `C51_dropped_for_good`).
18. `bwos::lifo_queue`: the owner's `push_back` spins while a thief is stalled between claim and report; when it
    ends is `C39_spin_ends`.
19. `trampoline_scheduler`: an operation may be deferred although it could run inline when the recorded origin is 0
    (not unsafe; covered by the arbitrary `big`).
20. `merge_each` with a receiver whose stop token is unstoppable: `__nested_stop::request_stop()` is compiled to a no-op,
    so the first error does not stop the siblings although they are given the source's token
    (`C49_unstoppable_never_stops`).
21. `merge_each`: `__receive_nested_sequence::set_error/set_stopped` and the catch block call the *operation's*
    `nested_sequence_break/complete` instead of `__next_seq_op_`'s, so the producer's next-receiver is never completed
    and the whole operation hangs (`C49_lost_never_completes`, `C49_hang`).
22. `merge_each`: `__receive_nested_value::set_error` completes the item's receiver before copying the error out of the
    item's operation state (`C49_error_dangles`).
23. `__any`: when the constructor of a value *stored in the buffer* throws (`emplace`, in-place construction, copying a
    small value), the first word of the buffer keeps the vtable pointer written by the base-class constructor instead of
    the tagged null: the `__any` claims to be non-empty and its destructor destroys an object that does not exist
    (`throwing_small_ctor_breaks`, `throwing_small_copy_breaks`).
24. `__any`: `__is_small` tests size and nothrow-movability but not alignment, so an over-aligned small type is
    constructed at a misaligned address of the buffer (`overaligned_small_misplaced`).
25. `__any`: the conversion to a base interface with an equally large buffer is `noexcept`, but if the base is not the
    first in the inheritance chain a heap-allocated value is moved into a new allocation, which may throw: the program
    terminates (`noexcept_conversion_terminates`).
26. `task`: the stop callback that forwards the awaiting environment's stop request calls `request_stop` on a source that
    lives in the promise. If the awaited sender completes inside its own stop callback, the coroutine frame is destroyed
    while `request_stop` of that source is still on the stack and goes on to use it (`stop_source_destroyed_in_use`).
    `when_all` guards against exactly this; `task` (and `any_sender_of`) do not. It cannot happen when the start scheduler
    always re-schedules.
27. `task`: a task whose start scheduler is default-constructed instead of made from the awaiting environment's claims to
    complete affinely, but resumes the awaiting task on its own context (`affinity_lost_after_default_scheduler`).

28. `io_uring_context`: `run_until_stopped` submits the wake-up operation whenever the door is not closed, not only on the
    first pass; driving the context again after `finish()` or `run_until_empty()` submits it a second time, and
    `run_until_empty()` then never returns (`C55_rerun_hangs`).
29. `io_uring_context`: after a stop the next run does not submit the wake-up operation (it was not re-armed when stop was
    requested), so it returns at once, with the door open (`C55_restart_returns_at_once`); `reset()` is needed.
30. `io_uring_context`: a cancellation operation accepted between the loop's end and the close is put into the ring by the
    final `submit` and never completed; `:621` asserts the opposite (`C55_cancel_lost`).
31. `io_uring_context`: `finish()` (or `run_until_empty()`) during a stop: "one entry outstanding" is taken for the wake-up
    operation; the context returns with an I/O operation in the kernel (`C55_finish_during_stop`).
32. `io_uring_context`: once the stop flag is set, the wake-up operation is not re-armed. If an unrelated write consumes it
    between `request_stop` setting the flag and its callbacks submitting cancellations, these are not noticed, and the
    context waits for I/O that may never complete (`C55_cancel_not_noticed`).
33. `io_uring_context`: with a full submission ring the wake-up operation can stay pending while the context blocks
    (`C55_full_ring_misses_wakeup`).
34. `io_uring_context::run()`: if driving throws, the receiver gets `set_error` and then `set_value` or `set_stopped`
    (`C55_run_sender_twice`).
35. `io_uring_context`: if stop is requested on the context's token and on the receiver's, the stop operation can be pushed
    again while it is still queued: the counter went 1→2→1 in between, so the second callback's compare-exchange succeeds
    (`C56_stop_op_linked_twice`).
36. `io_uring_context`: an I/O operation started after the context has stopped and closed is completed inline without
    `submit` having counted it; `__n_ops_` goes from 0 to -1 and the receiver is never completed
    (`C56_never_completes_when_closed`).
37. `associate`: if moving the wrapped sender, or connecting it, throws, the constructor's member `__assoc_` is destroyed
    before its parameter holding the wrapped sender: the scope can be joined while that sender still exists
    (`C57_move_early`, `C57_connect_early`).
38. `at_coroutine_exit`: on the stopped path the final awaiter of a cleanup coroutine calls `unhandled_stopped()` of the
    continuation, which delivers the completion, *before* it destroys its own frame: the captures and arguments of the last
    exit action outlive the stopped task's completion (`action_outlives_stopped_task`). After a value or an exception they do
    not.
39. `reschedule_coroutine_on`: `await_resume` is `noexcept` and rethrows: an error of the new scheduler, or an exception while
    registering the way back, terminates the program (`reschedule_error_terminates`).

40. `exec::asio::completion_token`: the stop callback holds a `lock_guard` on the operation state's mutex across `signal_.emit`. A
    cancellation handler that invokes or drops the completion handler inline completes the receiver, which may destroy the operation
    state, before the guard unlocks (or, with stop requested before the start, while `callback_.emplace` is still running).
41. `exec::asio::completion_token`: an initiation or executor function that completes the operation inline and then throws reaches a
    `catch` that accesses `ex_` of the dead operation state (in `run_`, behind a debug assertion).
42. `exec::asio::completion_token`: dropping the handler completes the operation even if functions of a parallel path are still queued in
    the executor; they hold a reference to the operation state and lock its mutex when they run.
43. `task_scheduler`: `bulk` with a sequential policy asks the back end for as many items as the shape, not one
    (`__task_scheduler.hpp:383-395`), but each `execute` runs the whole shape: `bulk_unchunked(seq, n)` calls the function with
    indices up to 2n-2, `bulk_chunked(seq, n)` runs the whole range once per chunk, concurrently.
44. `task_scheduler`: `execute` sends an exception of the function to the receiver and the back end still completes with `set_value`: the
    receiver is completed more than once.
45. The default back end's number of chunks wraps near 2^64 (`2^64-1` items on one thread: nothing runs, yet `set_value`).
46. `parallel_scheduler`: `execute` is `noexcept` without a handler: a throwing bulk function terminates.
47. `task_scheduler`: an exception while setting up the back end's operation (allocation, connect) reaches `__std::unreachable()`: for
    `schedule` in the `catch` itself, for `bulk` because the receiver proxy is declared infallible.
48. `get_parallel_scheduler()`: two concurrent first calls create two backends and return different schedulers; a first call in progress
    during `set_parallel_scheduler_backend` overwrites the new backend with one made by the old factory, for good.
49. `parallel_scheduler`: `__system_op` and `__system_bulk_op` have no destructor; the back end reference, or the predecessor's operation
    state, living in their byte storage is never destroyed if the operation is not started, is stopped before it reaches the back end, or
    (bulk) the predecessor completes with error or stopped.
50. `task_scheduler`'s `schedule` never registers the stop callback that translates other stop tokens: stop requests through them are not
    forwarded. `bulk` on a `parallel_scheduler` passes on `inplace_stop_token` only.
51. `windows_thread_pool`'s operations ask the receiver itself for a stop token (`get_stop_token(rcvr)`, `:439`, `:745`, `:821`) to decide whether stop is
    possible; a receiver that answers through `get_env` only yields `never_stop_token`, so its stop requests are ignored.
52. `start_now`: while one `async_wait` operation is waiting, a second one completes at once: its `compare_exchange` fails, which is taken to mean that
    everything has completed (`start_now.hpp:134-141`).
53. `submit_result` for a sender whose `submit` returns something (`__submit.hpp:181-231`): if the work completes inside that call and the receiver
    destroys the operation (`start_detached`, `async_scope::spawn`, `let_*`), the result is destroyed before it is constructed and then constructed in freed memory.
54. `any_sender` (see 26): an erased operation that completes inside its own stop callback destroys the operation's stop source while
    `request_stop` of that source is on the stack (`C67_violated_inline`).
55. `thread_pool_base::num_agents_required` (`thread_pool_base.hpp:203-210`) converts the pool's size to the shape type: with a `uint8_t` shape and a
   256-thread pool no task is enqueued and the operation never completes (`C68_violation`); with `int8_t` and 200 threads it asks for 2^32-56 tasks.
56. `libdispatch_queue`'s bulk (`libdispatch_queue.hpp:464`) tests `i != shared_state_.shape_` after submitting the last task, which may already have
   completed the receiver and destroyed the operation (`C69_use_after_completion`); its 32-bit counters make a shape of 2^32+1 complete after one call.
57. `__memory_resource_adaptor::allocate` (`__memory_resource_adaptor.hpp:174`) adds its overhead without an overflow check: `allocate(SIZE_MAX - 7, 1)`
   asks the allocator for 0 bytes and goes on with a null pointer (`C70_violation`).
58. `exec::function` sorts and uniques types by printed name (`function.hpp:452-458`, `__typeinfo.hpp:142-152`): of two different types that print alike (local
   types, lambdas) one is silently dropped (`C71_lossy`, `C71_violation`).
59. `fork_join`'s operation state and `connect` are `noexcept` (`fork_join.hpp:142, 258`) although connecting the predecessor or a branch may throw: an
   exception there terminates the program (not modelled).

60. `let_*` repeats its predecessor's attributes (`__let.hpp:596-601`) although the sender its function returns decides where and when it completes:
   `let_value(just(), [] { return schedule(pool); })` claims to complete inline, and `co_await`ing it keeps the operation state on a stack frame that is gone
   when the pool completes it (`C73_let_violation`, `C74_let_violation`, `C76_let_violation`, `C77_let_violation`).
61. `then`, `sequence` and `when_all` repeat their children's claims about the error channel, but report errors of their own (an exception of the function; an error
   after an asynchronous value) when and where the children's *values* arrived (`C73_then_violation`, `C73_sequence_violation`, `C73_when_all_violation`).
62. `affine` claims never to complete inline, also when it hands out a sender that may (`C73_affine_violation`).
63. `continues_on(inline_scheduler)` names the start scheduler (`__continues_on.hpp:136-295`), but completes where the predecessor does (`C74_inline_violation`).
64. `continues_on` names the predecessor's scheduler for errors that are delivered on its own (`C74_error_violation`), and its own scheduler for a stopped that the parallel
   scheduler reports on the caller's context (`C74_stopped_violation`); `sequence` names the scheduler of the one part that knows it (`C74_sequence_violation`).
65. If decay-copying the result throws, `on` and `affine` report the exception on the foreign context (`C75_throw_violation`, `C76_throw_violation`).
66. `exec::task::await_transform` asks only whether the *value* channel is affine (`exec/task.hpp:600-619`); an error or stopped may resume elsewhere (`C76_error_violation`).
67. `let_*` and `sequence` pass on the old start scheduler if the predecessor does not name its completion scheduler, so later parts are told a context they do not run on
   (`C78_sequence_violation`).
68. `monotonic_buffer_resource::do_allocate` sets its remaining space before it calls the upstream resource (`memory.cuh:288-289`): after one failed `cudaMalloc`
    it hands out memory it never obtained (`C79_violation`).
69. `synchronized_pool_resource` rounds a request of 2^63 bytes or more with `1ull << 64` (`memory.cuh:325`), undefined, one byte on common hardware (`C79_huge_violation`).
    Line 330 assigns a constructor parameter that shadows the member, without effect.
70. A block is lost if recording its descriptor throws (`memory.cuh`, `C79_leak_violation`).
71. `nvexec::queue::producer` moves the shared tail after it has linked its task: the poller may already have freed the old tail which another producer still reads
    (`queue.cuh:48-75`, `C80_uaf_violation`).
72. `poller` tests the stop flag after it has found no successor, and exits without looking again: a task pushed in between is lost (`queue.cuh:117-140`, `C80_lost_violation`).
73. nvexec `bulk` converts the shape to `int` (`bulk.cuh:42-52, 79-80`): a shape of 2^32 + 5 leads to five calls and success (`C81_single_violation`), and from 2^31 - 256 on
    the grid size overflows (`C81_overflow_violation`).
74. The multi-device kernel computes indices in the shape's type (`bulk.cuh:164-176`): with narrow types indices are visited twice (`C81_multi_violation`) or are negative
    (`C81_negative_violation`).
75. nvexec `when_all` forwards stop requests without counting itself (`when_all.cuh:271`, unlike `__when_all.hpp:562-587`): if the last child completes inside the stop callback,
    the operation is destroyed while `request_stop()` still uses its stop source (`C82_uaf_violation`).
76. `_sync_op` stores the result of `cudaStreamSynchronize` where nobody looks (`when_all.cuh:104-114`): an asynchronous failure is reported as success (`C82_async_violation`).
77. If `cudaMallocManaged` fails, nvexec `when_all` starts its children nevertheless and lets kernels write to a null pointer (`C82_null_violation`).
78. After a failed CUDA call nvexec `when_all` completes without waiting for the other children's streams (`C82_pending_violation`).
79. nvexec `ensure_started` calls `compare_exchange_weak` once (`ensure_started.cuh:357`): if it fails spuriously, the receiver is completed with a variant that was not written, while the child is running (`C83_violated_premature`; `STDEXEC_ASSERT(old == completion_state)` fails in a debug build).
80. nvexec `ensure_started::opstate` declares `on_stop_` before `shared_state_` and does not reset it when `start()` finds that a stop was requested (`ensure_started.cuh:273-274`, `:346-351`): the shared state can be destroyed under a stop callback that runs on another thread (`C83_violated_race`).
81. nvexec `ensure_started` and `split` forward stop requests to a stop source that the completion of the child inside that request may destroy (`C83_violated_inline`, `C84_violated_inline`).
82. Both store the result of `cudaStreamWaitEvent` and then visit the variant as if it had succeeded; in `split` the next operation gets the error instead (`C83_violated_wait`, `C84_violated_status`).
83. Without memory for the result, `split` and (for a child that is not a stream sender) `ensure_started` start the child and let it write through a null pointer; in `split` the recording of the event then overwrites the error (`C83_violated_null`, `C84_violated_null`).
84. nvexec `sync_wait`: when `cudaStreamSynchronize` fails in `set_value` or `set_stopped`, `_set_error` calls `loop_->finish()` and the caller calls it again (`sync_wait.cuh:71`, `:125`, `:158`); the second call goes through a receiver and a loop that may be destroyed (`C85_violated`). Errors that are not `cudaError_t` are thrown as `cudaErrorUnknown` (`C85_error_lost`).
85. nvexec `repeat_n` starts the next run from the completion of the previous one without a trampoline (`repeat_n.cuh:114`): the stack is as deep as the count (`C86_stack_violated`). `exec::repeat_n` uses the trampoline scheduler.
86. nvexec `repeat_n` passes its local `arg_copy` (or the temporary `std::current_exception()`) by reference to a kernel that runs asynchronously when the receiver is not a stream receiver (`repeat_n.cuh:119`, `:124`, `common.cuh:767`): dangling reference (`C86_dangling_violated`).
87. nvexec `stream_provider`: when `borrow_stream` fails, `own_stream_` holds a null handle that the destructor gives to the pool (`common.cuh:361`, `:390`); the pool then lends the legacy default stream, with `cudaSuccess`, to any number of operations at once and calls `cudaStreamDestroy(0)` (`C87_violated`, `C87_violated_destroy`).
88. nvexec `then` registers the deferred destruction of its result before it checks that the kernel was launched (`then.cuh:98-101`): if the launch fails an object that was never constructed is destroyed (`C88_violated_destroy`).
89. nvexec frees a deferred result with `sizeof(Type)` though it was allocated with `memory_allocation_size()` (`common.cuh:727` against `:903`) (`C88_violated_size`).
90. nvexec `upon_error` passes an error that lives on the host's stack by reference to its asynchronous kernel (`upon_error.cuh:87`, `:102`) (`C88_violated_dangling`).
91. `schedule_after(sched, duration::max())` on a scheduler with `schedule_at` only, and `schedule_at(sched, time_point::min())` on one with `schedule_after` only, overflow (`timed_scheduler.hpp:244`, `:319`) (`C89_thread_after_violated`, `C89_fallback_at_violated`).
92. io_uring's `schedule_at` computes the duration when it is called, not when the operation is started (`io_uring_context.hpp:1339`): late by the time in between (`C89_uring_at_late`, `C89_uring_at_violated`).
93. io_uring with timerfd: the duration counts from `connect` (early); minus the current time disarms the timer (never completes); less throws from `connect` (`C89_timerfd_early`, `C89_timerfd_never`, `C89_timerfd_invalid`).
94. Windows: durations are rounded down to ticks of 100 ns (early); a negative duration beyond the epoch becomes a relative wait (`C89_win_early`, `C89_win_negative`).
95. `xorshift(0)` yields 0 for ever; `seed(rd)` combines two 32-bit words with a shift by 31, so that different pairs collide and the top bit is never set (`C90_zero_sticks`, `C90_seed_collides`, `C90_seed_half`).
96. `schedule_all`: `start` releases `start_mutex_`, a member of the operation state, after the last items were enqueued (`static_thread_pool.hpp:1772-1775`): the pool may have completed the receiver, which may have destroyed the operation state (`C91_uaf_violated`).
97. Relaxed decrements of reference counts whose last owner destroys the object or completes the receiver: `static_thread_pool.hpp:1669-1683` (`countdown_`), `timed_thread_scheduler.hpp:280-351` (`ref_count_`), `:195-238` (`n_submissions_in_flight_`): data race in the C++ memory model (`C93_order_needed`). `__when_all.hpp:805` asks (TODO) which order the exchanges of the state need: none (`C92_*` hold for every order).
98. `stop_token.hpp:325-341`: the constructor of a stop callback that finds stop requested does so with a relaxed load and executes the callback inline: what was written before `request_stop` does not happen before the callback (`C94_inline_violated`); `std::stop_callback` and `stop_requested()` do synchronise. An acquire load suffices (`C94_no_race`).
99. `__transform_sender.hpp:66-68`: `__get_declfn` ignores its parameter `_Nothrow` and declares the `noexcept` of the last transformation only; an earlier one that throws (`on`, copying an lvalue child: `__on.hpp:349-357`) ends the program.
100. `static_thread_pool.hpp:943-975`: `bulk_enqueue` with constraints distributes over all threads unless the caller is on an allowed node; and work stealing ignores constraints.
101. `safe_file_descriptor::reset` closes the descriptor it is given if it owns it already, and keeps it (`detail/safe_file_descriptor.hpp:53-60`, `C102_reset_self`).
102. A failing `io_uring_setup` is always reported as `EPERM`: the code is taken from the -1 that `::syscall` returns, not from `errno` (`io_uring_context.hpp:74-75`, `C102_setup_code_violated`).
103. GPU `let_*`: a launch that is refused is not noticed (`let_xxx.cuh:145-146`); the storage, in which nothing was constructed, is connected and started (`C104_launch_violated`).
104. GPU `let_error`: the error is passed to the device, and to the second operation, by reference to a variable of the caller (`let_xxx.cuh:141`, `C104_arguments_violated`).
105. GPU `continues_on`: objects that are not trivially copyable are constructed on the host (`continues_on.cuh:82-86`) and destroyed by a kernel (`common.cuh:711-725`), `C105_side_violated`.
106. GPU `schedule_from`: no destructor frees the task of an operation that is not started (`schedule_from.cuh:35-115`); and an operation that is started with a bad status frees it nowhere (`common.cuh:868-896`), `C105_task_violated`.
107. `__optional::reset` lowers the flag after the destructor has returned (`__optional.hpp:206-207`; standard libraries lower it before): a destructor that calls `reset()` on its own holder is run twice, `C106_reentrant_reset_destroys_twice`.
108. `__static_vector::erase` returns `end()` (`__static_vector.hpp:172`) where the containers it imitates return the position after the last element removed, `C107_erase_returns_end`; its constructor drops what exceeds the capacity in silence (:104).
109. `create`: the state is a `std::optional` emplaced with the result of the call (`create.hpp:50-54`), so a function that returns something must not complete its receiver before it returns, `C108_inline_completion_violated`; nothing says so.
110. `just_from`: a function that throws after it has called the sink completes the receiver twice (`just_from.hpp:96-105`), `C109_throws_after_sink_violated`.
111. `multi_gpu_stream_context`: no result of the runtime is looked at (`multi_gpu_context.cuh:173-193`); a device that cannot be made current has its requests made for the one before it, `C110_failing_device_violated`.
112. `multi_gpu_stream_scheduler`: the destructor destroys a stream whose creation failed (:62-65), `C110_stream_violated`; refused kernels are not noticed (:90-97), `C110_launch_violated`.
113. GPU `reduce`: the temporary storage is not freed when the second call of `cub::DeviceReduce::Reduce` fails (`reduce.cuh:96-109`), `C111_temp_violated`.
114. `nvexec::variant_t`: a tuple with an `exception_ptr` is never destroyed (`variant.cuh:175-180`), `C114_ep_leaks`.
115. `nvexec::variant_t`: the implicit copy constructor copies bytes, so a copy destroys the object a second time, `C114_copy_double`.
116. `nvtx::scoped` around a closure that changes threads leaves its range open on the one thread and closes a foreign one on the other (`nvtx.cuh:52-65`: the ranges of NVTX belong to threads), `C115_thread_violated`; around one that repeats, it opens the range every time and closes it once, `C115_again_violated`.

## Trusted base

* Lean 4.33.0's kernel. Axioms: every theorem depends on a subset of `propext`, `Classical.choice`,
  `Quot.sound` (checked by `vcheck`; no axioms are added, nothing rests on compiled code).
* The reading of the C++ source into the models: every definition cites the lines it models; where a step
  merges several accesses or omits something, the comment says so.
* Sequential consistency of the atomics in all models but those of C92–C99 (elsewhere the effects of the acquire,
  release and relaxed orders in the code are outside the models).
* The contracts used when a model abstracts another subsystem (stop callbacks: C02–C04; atomic queue: C11; heap:
  C40; mpsc queue: C12; deque: C39) are the ones proved for that subsystem, transferred by hand.

## Testing the theorems

`seeded/LOG.jsonl` records deliberately wrong programs: the definition edited, the edit, the claim it breaks, the
theorems that failed, and theorems tightened because of it.
