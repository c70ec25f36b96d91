import json
P=[]
def p(id,title,statement,quantifier,why,anchors):
    P.append(dict(id=id,title=title,statement=statement,quantifier=quantifier,why_tests_cant=why,anchors=anchors))
SCHED="The claim is about every interleaving of an unbounded number of threads; a test run samples a few schedules and cannot show that no other schedule breaks it."
D="include/stdexec/__detail/"
p("C01","request_stop wins exactly once and stop is permanent",
  "For an inplace_stop_source, among all calls of request_stop() at most one returns true; stop_requested() is true from the moment any request_stop() call returns (with either result) and never becomes false again.",
  "every number of threads, every interleaving of request_stop / callback registration / callback destruction, including calls nested in callbacks", SCHED,
  ["include/stdexec/stop_token.hpp: inplace_stop_source::request_stop, __try_lock_unless_stop_requested_, stop_requested"])
p("C02","A stop callback is invoked at most once, and never without a stop request",
  "Each stop callback object registered with an inplace_stop_token has its function invoked at most once during its lifetime, and only after request_stop() has been called on the source.",
  "every schedule of any number of threads registering, deregistering and requesting stop, with callbacks themselves calling the API", SCHED,
  ["include/stdexec/stop_token.hpp: request_stop, __try_add_callback_, __register_callback_"])
p("C03","Destroying a stop callback is a barrier",
  "Once the destructor of a stop callback has returned, its function is not running on any other thread, will never be started, and request_stop() never again reads or writes the callback object; this includes a callback that destroys itself from inside its own invocation.",
  "every schedule, including destruction concurrent with request_stop and self-destruction inside the callback", SCHED+" Violations are use-after-free races that sanitizers see only when the schedule happens.",
  ["include/stdexec/stop_token.hpp: __remove_callback_, request_stop"])
p("C04","No stop callback is missed",
  "When the request_stop() call that returned true has returned, every callback whose registration completed and whose destruction has not begun has been invoked; a callback registered after stop was requested has been invoked by the time its constructor returns.",
  "every schedule and every number of callbacks", SCHED,
  ["include/stdexec/stop_token.hpp: request_stop, __try_add_callback_, __register_callback_"])
p("C05","stop_when fuses two stop sources",
  "The stop token seen by the child of stop_when(sndr, token) reports stop_requested() iff the receiver's token or the given token does, and a callback registered on it runs at most once even if both underlying sources are stopped concurrently, and does run if either is stopped.",
  "every interleaving of the two underlying sources' notifications and of registration", SCHED,
  [D+"__stop_when.hpp: __fused_token, __fused_callback"])
p("C06","run_loop executes every scheduled task exactly once, in FIFO order",
  "Tasks enqueued on a run_loop are executed only by the thread inside run(), each at most once, in the order in which their enqueue took effect, and none is lost: a task whose enqueue has taken effect is executed before run() returns.",
  "any number of producer threads, tasks and interleavings, including tasks that schedule more tasks", SCHED,
  [D+"__run_loop.hpp: __run_loop_base::run, __execute_all, __task::start", D+"__atomic_intrusive_queue.hpp"])
p("C07","run_loop::run returns only after finish, fully drained",
  "run() returns only if finish() has been called; when it returns, every operation whose start() had begun (counted itself in) has been executed.",
  "any number of producers, finishers and interleavings", SCHED,
  [D+"__run_loop.hpp: run, finish, __task::start"])
p("C08","run_loop never loses a wake-up",
  "There is no reachable state in which run() sleeps although a task is queued (or finish() has completed) and no thread is still about to wake it.",
  "every interleaving of producers, finish() and the sleeping consumer", SCHED+" A lost wake-up is a hang with probability near zero in tests.",
  [D+"__run_loop.hpp: run", D+"__atomic_intrusive_queue.hpp: push, wait_for_item"])
p("C09","A run_loop may be destroyed once run() has returned",
  "If a run_loop is destroyed after run() returns, no thread inside start() of an already-executed operation or inside finish() touches the loop object any more.",
  "every interleaving", SCHED,
  [D+"__run_loop.hpp: finish, start", D+"__atomic_intrusive_queue.hpp: push"])
p("C10","The intrusive queue is a list",
  "__intrusive_queue's push_front, push_back, pop_front, append, prepend, make_reversed, clear, iteration and splice act on the linked nodes exactly as the corresponding operations on a sequence, with head, tail and next links consistent after every operation.",
  "every sequence of operations on any number of nodes and queues", "A pointer structure has unboundedly many shapes; a unit test fixes a few lengths and positions.",
  [D+"__intrusive_queue.hpp: __intrusive_queue"])
p("C11","The atomic intrusive queue neither loses nor duplicates items",
  "For __atomic_intrusive_queue, the concatenation of all batches returned by pop_all (each in FIFO order) is exactly the sequence of pushed items in the order their pushes took effect, restricted to those already taken.",
  "any number of producers pushing and consumers popping, every interleaving", SCHED,
  [D+"__atomic_intrusive_queue.hpp: push_front, prepend, pop_all, pop_all_reversed"])
p("C12","The MPSC queue is FIFO and loses nothing",
  "__intrusive_mpsc_queue: items are popped in the order in which producers' pushes took effect, each at most once; when no push is in progress, pop_front returns null only if the queue is empty; push_back reports 'was empty' so that a sleeping consumer can be woken.",
  "any number of producers, one consumer, every interleaving", SCHED,
  [D+"__intrusive_mpsc_queue.hpp: push_back, pop_front"])
p("C13","Counting scopes count associations",
  "For (simple_)counting_scope, try_associate succeeds iff the scope is neither closed nor joined and below the maximum; the number of outstanding associations equals successful associations minus disassociations; after close() no new association is granted.",
  "every interleaving of any number of associate / disassociate / close / join calls", SCHED,
  [D+"__counting_scopes.hpp: __base_scope::__try_associate, __disassociate, __close"])
p("C14","join completes exactly once and only when the scope is empty",
  "Each started join operation of a counting scope completes exactly once, never while an association is outstanding, and after the first join completion no association is ever granted again.",
  "every interleaving, any number of joins and associations", SCHED,
  [D+"__counting_scopes.hpp: __start_join_sender, __disassociate, __register"])
p("C15","A joined counting scope may be destroyed",
  "If a join operation has completed (or the scope was never used), running the scope's destructor does not terminate the program, and no other thread still inside a scope operation touches the scope object afterwards.",
  "every interleaving, any number of joins", SCHED,
  [D+"__counting_scopes.hpp: ~__base_scope, __disassociate, __start_join_sender"])
p("C16","when_all completes its receiver exactly once",
  "A started when_all operation with n children completes its receiver exactly once, after all n children have completed, whatever the order and kind of the children's completions and whenever stop is requested.",
  "every n, every completion of each child, every interleaving of completions and of the parent's stop request", SCHED,
  [D+"__when_all.hpp: __state::__arrive, __complete, __forward_stop_request"])
p("C17","when_all delivers all values in child order",
  "If all children complete with set_value and no stop was requested, when_all completes with set_value carrying the concatenation of the children's values in the order the children were given, independent of completion order.",
  "every n, values and completion order", "Completion orders grow factorially; a unit test fixes one.",
  [D+"__when_all.hpp: __receiver::set_value, __complete, __set_values"])
p("C18","when_all's failure disposition and sibling cancellation",
  "If some child completes with an error, when_all completes with the error of exactly one child (the first to report one, in the order reports take effect), never with values or stopped; if no child errors but one is stopped, it completes with stopped; in both cases stop is requested on the siblings before the operation completes.",
  "every n, every combination and order of child completions", SCHED,
  [D+"__when_all.hpp: __receiver::set_error, set_stopped, __set_error, __complete"])
p("C19","when_any delivers the first completion exactly once",
  "exec::when_any completes its receiver exactly once, after all children have completed, with the completion of the child that finished first; the others are asked to stop.",
  "every n, every child completion and interleaving", SCHED,
  ["include/exec/when_any.hpp: __op_base::notify, start"])
p("C20","spawn_future hands the result over exactly once",
  "If the future is connected and started, its receiver is completed exactly once: with the spawned work's result, or with stopped when stop wins; if it is abandoned instead, no receiver is completed.",
  "every interleaving of spawned completion, future start, stop and future destruction", SCHED,
  [D+"__spawn_future.hpp: __spawn_future_state"])
p("C21","spawn_future's shared state is freed exactly once, after its last use",
  "The allocated state is destroyed exactly once on every path (consumed, abandoned, stopped), and no thread touches it afterwards.",
  "every interleaving, including inline completion inside the stop request", SCHED,
  [D+"__spawn_future.hpp: __consume, __abandon, __do_complete, __do_try_cancel, __destroy"])
p("C22","split / ensure_started: start once, notify every waiter once",
  "The shared operation is started at most once, and each started consumer is completed exactly once with the shared result (or stopped if it was stopped while waiting), whether it subscribes before, during or after completion.",
  "every number of consumers and every interleaving", SCHED,
  ["include/exec/detail/shared.hpp: __shared_state::__try_start, __try_add_waiter, __notify_waiters, __local_state"])
p("C23","split / ensure_started: abandoned work is cancelled",
  "When the last consumer of a shared operation goes away while the operation is still running, stop is requested on it.",
  "every interleaving of consumers' destruction", SCHED,
  ["include/exec/detail/shared.hpp: __shared_state::__detach"])
p("C24","async_scope::on_empty waits for everything",
  "A sender nested with on_empty / when_empty on an async_scope starts its wrapped sender only after an instant, at or after its own start, at which every nested operation started until then has completed; each waiter starts its wrapped sender exactly once, and does start it once the nested operations have completed.",
  "every interleaving of nested operations' start and completion and of waiters", SCHED,
  ["include/exec/async_scope.hpp: __when_empty_op, __nest_op, __nest_rcvr::__complete"])
p("C25","Exactly one completion",
  "Starting an operation state built from any composition of the library's sequential adaptors completes its receiver exactly once, provided each leaf sender does.",
  "every sender expression, every leaf behaviour and every throwing behaviour of user functions", "Compositions are unbounded in depth; tests fix a handful.",
  [D+"__then.hpp", D+"__let.hpp", D+"__upon_error.hpp", D+"__upon_stopped.hpp", D+"__sequence.hpp", "include/exec/finally.hpp"])
p("C26","then / upon_error / upon_stopped transform one channel only",
  "then(f) invokes f exactly once iff the predecessor completes with values and completes with f's result or with the exception f threw; upon_error and upon_stopped do the same for their channel; completions on the other two channels pass through unchanged.",
  "every predecessor behaviour, value, function and composition", "Unbounded compositions and values.",
  [D+"__then.hpp", D+"__upon_error.hpp", D+"__upon_stopped.hpp"])
p("C27","let_* runs the chosen continuation",
  "let_value(f) (resp. let_error, let_stopped) invokes f once with the stored results iff the predecessor completes on that channel, then behaves as the sender f returned; if storing, f or connecting throws, it completes with that exception; the other channels pass through. It satisfies the monad laws up to observable completion.",
  "every predecessor, function, and composition", "Unbounded compositions and values.",
  [D+"__let.hpp"])
p("C28","Completion signatures are sound",
  "The completion an operation actually produces (channel and types) is one of those its sender declares via get_completion_signatures, for every composition of adaptors.",
  "every sender expression and environment, every run-time behaviour consistent with the leaves' declared types", "The declared set is computed for unboundedly many compositions.",
  [D+"__transform_completion_signatures.hpp", D+"__then.hpp", D+"__let.hpp", "include/exec/finally.hpp"])
p("C29","Exceptions are never lost",
  "An exception thrown by a user function, a copy of a result or a connect inside an adaptor is delivered exactly once as set_error(exception_ptr) to the downstream receiver and never escapes start().",
  "every point at which user code can throw, in every composition", "Throw points multiply with composition; tests exercise few.",
  [D+"__receivers.hpp: __set_value_from", D+"__let.hpp", D+"__continues_on.hpp"])
p("C30","continues_on / starts_on: where things run",
  "After continues_on(sndr, sch), values, errors and stopped of sndr are delivered on sch's context; starts_on(sch, sndr) starts sndr on sch's context; if scheduling itself fails or is stopped, that completion is delivered instead.",
  "every predecessor completion and scheduler behaviour", "Unbounded compositions.",
  [D+"__continues_on.hpp", D+"__starts_on.hpp"])
p("C31","finally always runs its final sender",
  "exec::finally(initial, final) starts the final sender exactly once after the initial one completed on any channel, then delivers the initial completion if final succeeded, and final's error or stopped otherwise.",
  "every behaviour of the two senders and of copying the results", "Unbounded combinations.",
  ["include/exec/finally.hpp"])
p("C32","Reifying adaptors are lossless",
  "dematerialize(materialize(s)) is observably s; into_variant, stopped_as_optional and stopped_as_error re-encode completions without losing or confusing them.",
  "every sender behaviour and value", "Round trips over unbounded data.",
  ["include/exec/materialize.hpp", D+"__into_variant.hpp", D+"__stopped_as_optional.hpp", D+"__stopped_as_error.hpp"])
p("C33","repeat_n / repeat_until run the right number of times",
  "repeat_n(s,n) runs s exactly n times if it keeps succeeding and otherwise stops at the first error or stopped, which it forwards; repeat_until re-runs s until it yields true, and forwards the first error or stopped.",
  "every n, every sequence of run outcomes", "n and histories are unbounded.",
  ["include/exec/repeat_n.hpp", "include/exec/repeat_until.hpp"])
p("C34","sync_wait returns the completion",
  "sync_wait returns the values if the sender completes with values, rethrows an error, returns an empty optional for stopped, and returns only after the completion (delivered from any thread).",
  "every completion and every schedule between the completing and the waiting thread", SCHED,
  [D+"__sync_wait.hpp"])
p("C35","Environment queries resolve leftmost-first",
  "A query on env{e1,...,en} is answered by the first ei that answers it; joining an environment lets the left one shadow the right one, and only forwarding queries of the right one remain visible.",
  "every list of environments and queries", "Unbounded compositions of environments.",
  [D+"__env.hpp: env, __fwd, __join_fn"])
p("C36","Bulk work is partitioned exactly",
  "even_share(n, rank, size) for rank = 0..size-1 yields consecutive ranges that partition [0,n), each index in exactly one range, with sizes differing by at most one, with no overflow for any machine-size n.",
  "every n, size >= 1 and rank", "n and size are unbounded / machine-sized.",
  ["include/exec/static_thread_pool.hpp: even_share"])
p("C37","Pool bulk invokes each index once and completes once, last",
  "bulk on static_thread_pool invokes the function for each index of the shape exactly once, and completes the receiver exactly once after all invocations have returned; if any invocation throws it completes with one of the thrown exceptions, otherwise with the predecessor's values.",
  "every shape, pool size, interleaving of agents and pattern of exceptions", SCHED,
  ["include/exec/static_thread_pool.hpp: _bulk_shared_state, bulk_task::do_execute_, bulk_enqueue", D+"__bulk.hpp"])
p("C38","A pool worker never sleeps on work pushed to it",
  "There is no reachable state in which a static_thread_pool worker is asleep while its remote queue holds a task (or stop was requested) and no thread is still about to notify it.",
  "every interleaving of submitters, notifiers, request_stop and the worker", SCHED,
  ["include/exec/static_thread_pool.hpp: thread_state::pop, notify, request_stop, enqueue"])
p("C39","The work-stealing deque hands out each task exactly once",
  "The BWoS lifo_queue returns each pushed task at most once in total (owner pops and thieves' steals together) and loses none; the owner pops in LIFO order among what is left, thieves steal oldest first within a block.",
  "every sequence of owner operations interleaved with any number of thieves", SCHED,
  ["include/exec/detail/bwos_lifo_queue.hpp"])
p("C40","The timer heap is a priority queue",
  "intrusive_heap: front is always a node with minimal key; insert, pop_front and erase keep exactly the right set of nodes; erase reports whether the node was present.",
  "every sequence of operations on heaps of any size", "Heap shapes are unbounded.",
  ["include/exec/detail/intrusive_heap.hpp"])
p("C41","Timed operations complete exactly once, never early, and in deadline order",
  "An operation scheduled on timed_thread_context completes exactly once: with a value no earlier than its deadline, or with stopped when it or the context is stopped; values are delivered in (deadline, submission) order; a stop request takes effect without waiting for the deadline.",
  "every set of timers, deadlines, stop requests, shutdown and interleaving", SCHED,
  ["include/exec/timed_thread_scheduler.hpp: timed_thread_context::run, schedule, timed_thread_schedule_at_op"])
p("C42","The trampoline scheduler bounds recursion and runs everything",
  "Every operation started on a trampoline_scheduler completes exactly once before the outermost start() returns, at most max-depth schedules are nested inline, and deferred operations run in FIFO order.",
  "every pattern of recursive scheduling of any size", "Recursion patterns are unbounded.",
  ["include/exec/trampoline_scheduler.hpp: __opstate_base::start, __state::__drain"])
p("C43","Variant storage never leaks, double-destroys or misreads",
  "__variant: at every point exactly the alternative named by index() is alive (none when valueless); across any sequence of emplace (possibly throwing), assignment and destruction each constructed object is destroyed exactly once.",
  "every sequence of operations and every throw point", "Histories are unbounded.",
  [D+"__variant.hpp"])
p("C44","Sequence senders deliver items in order, once, until told to stop",
  "iterate(range) offers each element exactly once in order and one at a time; ignore_all_values and transform_each complete once the sequence ends, with the first error or stopped any item produced, else with a value.",
  "every range length and every per-item outcome", "Lengths and outcome patterns are unbounded.",
  ["include/exec/sequence/iterate.hpp", "include/exec/sequence/ignore_all_values.hpp", "include/exec/sequence/transform_each.hpp"])
p("C45","sequence, bulk and environment adaptors do what they say",
  "sequence(a, b) starts b exactly when a completed with a value, where it completed, and otherwise passes a's completion on; default bulk, bulk_chunked and bulk_unchunked call the function on exactly 0..n-1 (one chunk for bulk_chunked) before passing the values on; write_env changes exactly the written query of the environment the child sees and read_env delivers what its receiver's environment answers.",
  "every child behaviour, every n, every environment", "Child behaviours and environments are unbounded.",
  ["include/exec/sequence.hpp", D+"__bulk.hpp", D+"__read_env.hpp", D+"__write_env.hpp"])
p("C46","The intrusive stack keeps its nodes",
  "__intrusive_slist: pop_front returns the most recently pushed node still present; remove(x) takes out exactly x when present and reports whether it was; no other node is lost, duplicated or reordered.",
  "every sequence of push_front, pop_front and remove, lists of any length", "List lengths and histories are unbounded.",
  [D+"__intrusive_slist.hpp"])
p("C47","async_scope::spawn_future delivers the work's result and manages its state",
  "The receiver connected to the future of async_scope::spawn_future is completed exactly once after start, with the spawned work's completion, or with stopped if stop was requested on its token; the state shared with the work is deleted exactly once and not used afterwards, however future, operation and work are destroyed or finish; a stop request on the future reaches the work.",
  "every interleaving of work, owner and stop requests", SCHED,
  ["include/exec/async_scope.hpp: __future, __future_opstate, __future_state_base, __future_receiver, spawn_future"])
p("C48","Stop-source calls never deadlock and always finish",
 "No interleaving of request_stop(), stop-callback constructors and stop-callback destructors, including calls made from inside callbacks and a callback destroying itself, can deadlock: while any such call is in progress, some thread can make progress or a callback's own function is still executing. If the callbacks' functions return and no new calls are made, every call in progress returns after a bounded number of steps, whatever the schedule.",
 "every number of threads and callbacks, every nesting of calls inside callbacks, every interleaving",
 "A deadlock or livelock appears only under particular interleavings of lock acquisition, callback execution and destruction; a test that passes says nothing about the others.",
 ["include/stdexec/stop_token.hpp: inplace_stop_source::request_stop, __lock_, __try_add_callback_, __remove_callback_"])
p("C49","merge_each completes once, after everything, with the first error",
  "For exec::merge_each: the output receiver is completed at most once and that is the last call made on it; it is completed only when the sequence of sequences, every nested sequence and every nested value sender has completed and its handler has finished with the operation state; if no child failed the completion is set_value (set_stopped if the sequence of sequences was stopped); if some child failed, the first error to arrive is delivered, as set_error if it came from the sequence of sequences and as the last item otherwise; the first error requests stop of all children; the operation always completes once its children have.",
  "every number and arrangement of nested sequences and values, every completion signal of each, every interleaving of their completion handlers, of stop requests and of the consumer",
  "the number of children and of interleavings of their completion handlers is unbounded; races on the active counter and the completion state show up only in particular schedules",
  ["include/exec/sequence/merge_each.hpp: __operation_base, complete_if_none_active, set_exception, set_break, nested_value_fail, __receive_nested_value, __receive_nested_values, __receive_nested_sequence, __receive_nested_sequences, __nested_stop"])
p("C50","Reference-counted objects die exactly once, with their last owner",
  "An object managed by __intrusive_ptr exists and is not destroyed as long as some __intrusive_ptr variable or released/manual reference refers to it; when the last of them goes (copying, moving, self-assignment, swap, reset, release, concurrent owners in several threads, destructors that destroy further pointers), its destructor is entered promptly, it runs exactly once and the storage is freed exactly once; no call touches the object before creation or after destruction; the reserved bits keep exactly what was written to them and neither disturb nor are disturbed by the count; no call waits for another thread.",
  "every number of objects, pointer variables and threads, every program over the operations, every interleaving", SCHED,
  [D+"__intrusive_ptr.hpp: __control_block, __intrusive_ptr, __enable_intrusive_from_this, __make_intrusive_t"])
p("C51","static_thread_pool executes every task exactly once",
  "Every task submitted to a static_thread_pool (remotely, from a worker, in bulk) is executed exactly once, by the worker it was submitted to or by a thief, and always with the index of the worker it was submitted to as its tid; if nothing more is submitted the pool comes to rest with everything executed; after a stop request all workers return, and work submitted before the stop request has been executed by then.",
  "every number of workers, submitting threads and tasks, every interleaving of submission, stealing, sleeping, notification and stop", SCHED,
  ["include/exec/static_thread_pool.hpp: _static_thread_pool::enqueue, bulk_enqueue, run, thread_state::pop, try_remote, try_steal, notify, request_stop, join"])
p("C52","Type-erased values behave like variables and never leak",
  "An __any<Interface> behaves like a variable that is empty or holds a value: construction, move, copy, assignment, swap, emplace, reset and conversion to a base interface transfer exactly the value they should, whether it is stored in the buffer or on the heap; emptiness is reported correctly; if a constructor or allocation throws, copy-assignment leaves the target unchanged, emplace leaves it empty and constructors create nothing; every value constructed is destroyed exactly once and every block freed exactly once; no dead or moved-from value is used; values are placed at properly aligned addresses; operations declared noexcept do not throw.",
  "every program over any number of such variables, any types and interfaces (sizes, alignments, nothrow-ness), every pattern of throwing constructors and allocations",
  "Programs, type sizes and failure points are unbounded; leaks and double destruction show up only for particular mixes of in-buffer and heap values and particular exceptions.",
  [D+"__any.hpp: __tagged_ptr, __is_small, __emplace_into, __value_model, __value_proxy_root, __any, __interface_base::__slice_to_"])
p("C53","co_await of a sender resumes the coroutine exactly once",
  "A coroutine that co_awaits senders is resumed exactly once per await, after the operation has completed and with exactly its result (a value, an exception, or the stopped continuation), in program order; it never runs while await_suspend or the completing thread still accesses the awaiter, which is never touched after its destruction; operations that complete inside start() do not nest calls of resume() on the stack; once the operation has completed and start() has returned, the coroutine is resumed after finitely many steps.",
  "every number of awaits, every assignment of completions to threads (inline, later on the same thread, on another thread), every interleaving", SCHED,
  [D+"__as_awaitable.hpp: __sender_awaiter_base, __receiver_base, __async_receiver::__done, __sender_awaiter::await_suspend"])
p("C54","stdexec::task behaves like structured code",
  "A task awaiting senders and other tasks to any depth completes with the outcome its body has as ordinary structured code: values and exceptions arrive at the co_await, a stopped sender or task ends every coroutine above it; each coroutine is destroyed exactly once, before the co_await on it returns, and nothing destroyed is used by the coroutines or by a thread requesting stop; a stop request on the receiver's token reaches the token of every coroutine that runs, also of tasks started later; every coroutine goes on on its start scheduler's context after each co_await; the coroutines never get stuck.",
  "every program of tasks (bodies of any depth and branching, every combination of stop token and scheduler types), every outcome of the awaited senders and of registering callbacks, every interleaving with a stop request", SCHED,
  [D+"__task.hpp: __awaiter, __promise, __completed_awaiter, __stop_callback_box, __reset_callback, await_suspend, await_resume, __canceled, unhandled_stopped", D+"__affine.hpp: affine", D+"__connect_awaitable.hpp: __opstate"])
p("C55","io_uring_context completes every operation once and loses no wake-up",
  "Every operation started on an io_uring_context is completed at most once and only after it was started, as stopped only if stop was requested; the submission and completion rings never overflow; while the context is driven, every started operation is eventually completed (if the kernel completes the I/O it was given) no matter how start(), request_stop() and finish() on other threads interleave with the driving thread going to sleep; run_until_stopped() returns after request_stop(), with every operation started so far completed, and later ones complete inline as stopped; run_until_empty() and finish() return with no operation in the rings; the sender returned by run() completes once.",
  "every number of operations, ring sizes, kernel completion order and partial submission, every interleaving of start(), request_stop(), finish(), signals and the driving thread, every history of runs", SCHED,
  ["include/exec/linux/io_uring_context.hpp: __context::submit, run_some, run_until_stopped, run_until_empty, request_stop, finish, reset, __submission_queue::submit, __completion_queue::complete, __wakeup_operation, __io_task_facade::start, __schedule_operation, __run_op"])
p("C56","A stoppable I/O operation on io_uring_context completes exactly once, and cancelling it is safe",
  "An I/O operation (timer, read) started on an io_uring_context and given to the kernel completes its receiver exactly once, with set_stopped only if stop was requested on the receiver's or the context's token or the kernel reported a cancellation; a stop request that arrives while it is in the kernel causes one cancellation request to be submitted; the cancellation request is never put into a queue it is still in; when the receiver is completed neither the operation nor its cancellation is known to the context or the kernel, and no stop callback uses the operation any more; schedule_after gives the kernel a valid time equal to the requested duration (0 if negative).",
  "every interleaving of the driving thread, the kernel's completion order and stop requests on both tokens from any threads, at any moment before, during and after submission; every duration", SCHED,
  ["include/exec/linux/io_uring_context.hpp: __stop_operation, __stoppable_task_facade, __impl_base, __schedule_after_operation, __duration_to_timespec"])
p("C57","associate and spawn keep the scope open exactly as long as their work exists",
  "Each associate-sender that got an association, each operation connected from one and each spawned operation that has not completed holds exactly one association of the scope, also after copying, moving and connecting fail with exceptions; wrapped senders and operations are destroyed exactly once, and before the association that protects them is released, so join() cannot complete while one exists; when all are gone nothing is leaked; after close() no new association is obtained; an operation without association completes as stopped without starting the work, one with association starts it once and completes when it does.",
  "every program of associate, copy, move, connect, start, destroy, spawn and close, of any size, with exceptions thrown by any wrapping, copying, moving, connecting, allocating or associating", "exceptions at every point of every program of copies, moves and connects",
  [D+"__associate.hpp: __associate_data, __op_state", D+"__spawn.hpp: __spawn_state, spawn_t::operator()", D+"__counting_scopes.hpp: __association_t"])
p("C58","Exit actions of a task coroutine run once each, in reverse order, without changing the result; affinity and reschedule",
  "For a task coroutine, each action registered with at_coroutine_exit runs exactly once, the last registered first, after the body has ended by return, exception or stop and before the coroutine that awaits the task goes on; an action registered with on_coroutine_succeeded / failed / stopped runs exactly when the body ended that way; the actions change neither the result nor anything else the coroutines do; a coroutine goes on on its own scheduler after awaiting a task whatever that task did, and a task that rescheduled itself completes where it started; every coroutine frame is destroyed exactly once and none is used afterwards; an exit action is destroyed before its coroutine completes.",
  "every coroutine body, of any size and depth of nesting: any mix of awaited senders and tasks with any outcomes, handlers, exit actions (which may themselves be tasks with exit actions) and reschedules", "programs of unbounded size and nesting; each test is one of them",
  ["include/exec/task.hpp: basic_task, __task_awaiter, __reschedule_awaiter", "include/exec/at_coroutine_exit.hpp: __task", "include/exec/on_coro_disposition.hpp: __task, __on_disp", D+"__with_awaitable_senders.hpp: __with_awaitable_senders", D+"__connect_awaitable.hpp: __opstate, __promise"])
p("C59","An Asio operation used as a sender completes its receiver exactly once, with the first exception, and is not touched afterwards",
  "The sender that an Asio initiating function returns for exec::asio::completion_token completes its receiver exactly once once its completion handler has been invoked or dropped: with the first exception thrown by the initiation or by a function run by the handler's executor if there was one, else with the handler's arguments, or stopped if it was dropped; if dropped, only after every executor function on the stack has returned; if invoked, at once, and the frames left on the stack then do not access the operation state; a stop request made before or after the start reaches the operation as one cancellation signal; nothing deadlocks",
  "every interleaving of any number of threads that run the operation's functions, throw, invoke or drop the handler and request stop, with any nesting of executor functions", SCHED,
  ["include/exec/asio/completion_token.hpp: operation_state_base::frame_, run_, on_stop_request_, completion_handler, operation_state::start, executor"])
p("C60","bulk on parallel_scheduler and task_scheduler invokes the function once per index",
  "bulk, bulk_chunked and bulk_unchunked scheduled on a parallel_scheduler or a task_scheduler invoke the function for every index of the shape exactly once and for no other index before the receiver gets set_value; the receiver is completed exactly once; with a sequential policy the invocations do not overlap and are in index order; the default back end splits any shape into non-empty disjoint ranges that cover it. Every run ends.",
  "every shape, pool size and policy, every back end meeting its contract, every interleaving and order of the back end's calls, every pattern of exceptions",
  "Shapes and pool sizes range over all machine integers and the back end may run its ranges in any order on any number of threads; a test samples a few shapes.",
  [D+"__parallel_scheduler.hpp: __bulk_state_base, __bulk_intermediate_receiver, execute", D+"__parallel_scheduler_default_impl.hpp: __chunker, schedule_bulk_chunked, schedule_bulk_unchunked", D+"__task_scheduler.hpp: __bulk_state, __bulk_sender, __backend_for"])
p("C61","All parallel_schedulers share one backend, and replacing it takes effect",
  "Every call of get_parallel_scheduler() returns a scheduler for a backend made by an installed factory, and all calls return the same one until set_parallel_scheduler_backend is called; after set_parallel_scheduler_backend(f) has returned, new calls get a backend made by f; it returns the factory that was installed before. The calls never deadlock and return.",
  "every number of threads and calls, every interleaving, every factory that throws", SCHED,
  [D+"__parallel_scheduler_default_impl.hpp: __instance_data"])
p("C62","parallel_scheduler and task_scheduler operations complete once and release what they own",
  "A schedule or bulk operation on a parallel_scheduler or task_scheduler completes its receiver exactly once; it never uses an object that does not exist, nor its storage for two objects at once, and places objects only in suitably aligned parts of it; when the operation state is destroyed (unstarted or completed), everything it owned has been destroyed; a stop request reaches the back end's operation while it runs, and schedule completes with stopped only after one.",
  "every token type, every outcome of the predecessor, the back end and its allocations, a stop request at any moment, destruction with or without start; every address, size and alignment of the storage",
  "Leaks and lost stop requests depend on the moment of the stop request, on failures and on the token type; tests cover a few combinations and do not look for leaks.",
  [D+"__parallel_scheduler.hpp: __system_op, __system_bulk_op, __bulk_intermediate_receiver", D+"__parallel_scheduler_backend.hpp: __stop_callback_for, __receiver_proxy_base, __proxy_receiver", D+"__task_scheduler.hpp: __any_opstate, __bulk_opstate", D+"__parallel_scheduler_default_impl.hpp: __ensure_alignment, __operation"])
p("C63","windows_thread_pool operations complete once under any race of callback, start and stop",
  "An operation of windows_thread_pool's schedule, schedule_at or schedule_after completes its receiver exactly once, with a value or (only if stop was requested through the receiver's environment) stopped; the operation state and its flags are not touched after their destruction, the flags are freed exactly once; start, the pool's callback and the stop callback never deadlock and never retry for ever. Stop requested before the start prevents the submission; once a stop request has taken effect the operation does not complete with a value.",
  "every interleaving of the starter, the pool's thread and the stop requester; stop at any moment or never; receivers with and without a stop token", SCHED,
  ["include/exec/windows/windows_thread_pool.hpp: _cancellable_schedule_op_base, _time_schedule_op"])
p("C64","start_now: async_wait completes once, after everything that was started",
  "The object returned by start_now starts all its senders; a sender from async_wait() completes its receiver exactly once, and only after all started operations have completed; once it has completed (and no other async_wait is going on) the object may be destroyed. No call blocks.",
  "every number of senders, every interleaving of their completions with any number of async_wait operations, one after the other or at the same time", SCHED,
  ["include/exec/start_now.hpp: __storage_base, __operation, __storage"])
p("C65","start_detached frees its operation exactly once and lets no exception escape after the start",
  "start_detached either throws, having started nothing and released everything, or starts the work; the operation exists until the work completes with a value or stopped, and is then destroyed and deallocated exactly once, with nothing used afterwards; an error completion terminates the program.",
  "every kind of sender (connect, or its own submit with or without a result), every exception, completion at any moment: inside the starting call, or later on any thread",
  "Self-deletion inside the constructor, or on another thread while the constructor runs, is memory-unsafe only for some completion moments; a test sees one schedule.",
  ["include/exec/start_detached.hpp: __operation, __receiver, start_detached_t", "include/stdexec/__detail/__submit.hpp: submit_result"])
p("C66","An awaitable connected to a receiver completes it exactly once, with what the awaitable did",
  "The operation state that connect makes for an awaitable completes its receiver exactly once: with the result of await_resume, with the exception thrown by whichever call on the awaitable, or with stopped when unhandled_stopped is called; it is not used after that. Awaitable and awaiter exist as long as they may be used and are destroyed exactly once, in the reverse order of construction, also when constructing the awaiter throws or the operation is never started. A completion is never lost.",
  "every awaitable: every exception, every result type of await_suspend, resumption on any thread at any moment, even before await_suspend has returned", SCHED,
  [D+"__connect_awaitable.hpp: __opstate, __promise, __awaitable_state"])
p("C67","A type-erased sender completes its receiver once and forwards stop requests",
  "An operation made from an any_sender completes its receiver exactly once, with the completion of the erased operation; a stop request on the receiver's token reaches the erased operation's token (whatever the two token types), before or after the start, and the erased operation's token is stopped only then; the operation state is not used after completion, and nothing deadlocks.",
  "every erased sender, every stop-token type, a stop request at any moment relative to start and completion, on any thread", SCHED,
  ["include/exec/any_sender_of.hpp: _state, _any_opstate"])
p("C68","bulk on TBB, Taskflow and Asio pools calls the function once per index and completes once",
  "bulk_chunked (and what lowers to it) on a pool derived from thread_pool_base calls the function on ranges that cover every index of the shape exactly once before completing with a value; the receiver is completed exactly once, with an exception that the function threw if it threw; nothing touches the operation after the completion.",
  "every integral shape type and shape, every pool size, every interleaving of the pool's threads, every pattern of exceptions",
  "Shape types, shapes and pool sizes range over machine integers; a test samples a few, on the machine it runs on.",
  ["include/exec/thread_pool_base.hpp: bulk_shared_state, bulk_receiver, num_agents_required, bulk_enqueue", "include/exec/tbb/tbb_thread_pool.hpp: enqueue", "include/exec/taskflow/taskflow_thread_pool.hpp: enqueue", "include/exec/asio/asio_thread_pool.hpp: enqueue"])
p("C69","bulk on libdispatch_queue calls the function once per index and completes once",
  "bulk on a libdispatch_queue calls the function for every index of the shape exactly once before completing with a value; the receiver is completed exactly once, with an exception that was thrown if there was one, and with the predecessor's error or stopped if that did not complete with values; nothing touches the operation after the completion.",
  "every shape, every order and overlap of the queue's tasks with each other and with the thread that submits them, every pattern of exceptions", SCHED,
  ["include/exec/libdispatch_queue.hpp: bulk_shared_state, bulk_task, bulk_receiver"])
p("C70","The memory resource that exec::function builds on an allocator returns aligned, disjoint blocks and gives everything back",
  "When exec::function's operation has no frame allocator, the polymorphic allocator it offers returns, for every size and alignment, blocks that are aligned as asked, lie inside memory obtained from the receiver's allocator, do not overlap and keep their contents; deallocating a block returns exactly the buffer and the size that allocator handed out, so nothing leaks and nothing is freed twice.",
  "every history of allocations and deallocations in any order, every size and power-of-two alignment, every address the underlying allocator returns, every byte that users store",
  "Alignment arithmetic and the hidden pointer behind each block depend on sizes, alignments and addresses that a test does not control.",
  ["include/exec/__memory_resource_adaptor.hpp: __memory_resource_adaptor::type::allocate, deallocate", "include/exec/function.hpp: __opstate_base"])
p("C71","The order and repetition of signatures, queries and attributes do not matter in exec::function",
  "Two specialisations of exec::function whose lists of completion signatures (queries, attributes) contain the same entries, in any order and with any repetitions, are the same type, and that type supports exactly the entries listed.",
  "every two lists of types of any length", "Lists have unbounded length; a test compares a few.",
  ["include/exec/function.hpp: __canonicalize_impl, __canonicalize, __canonical_t", D+"__typeinfo.hpp: __type_info::operator==, operator<=>", D+"__static_vector.hpp: __static_vector"])
p("C72","fork_join gives the predecessor's result to every branch and joins them all",
  "fork_join starts its predecessor once; when that completes, every branch is started exactly once with that result (or with the exception thrown while storing it), unless stop was requested; the receiver is completed exactly once, after all branches have completed. The predecessor's operation is destroyed exactly once and before the branches start, and also if fork_join is never started; the result is alive as long as branches run.",
  "every number of branches, every completion of the predecessor and the branches, at any time and from any thread, every exception while storing the result, destruction with or without start", SCHED,
  ["include/exec/fork_join.hpp: _opstate_t, _cache_sndr_t"])
p("C73","Advertised completion behaviour is honoured",
  "What a sender says about how it completes (inline, asynchronously, on the context it was started on) for a channel is true of every completion it delivers on that channel.",
  "every sender built from just, read_env, schedule, then, upon_*, let_*, sequence, continues_on, starts_on, on, when_all, affine and arbitrary user senders, nested to any depth, every environment and starting context, every exception, every channel", SCHED,
  ["include/stdexec/__detail/__completion_behavior.hpp: __get_completion_behavior_t", D+"__let.hpp: __attrs", D+"__sequence.hpp: __attrs", D+"__continues_on.hpp: __attrs", D+"__when_all.hpp: __attrs", D+"__affine.hpp"])
p("C74","The advertised completion scheduler is where the sender completes",
  "If get_completion_scheduler<Tag>(get_env(sndr), env) names a scheduler, every completion of sndr on that channel arrives on that scheduler's execution context.",
  "the same senders as C73, every environment whose start scheduler is where the operation is started", SCHED,
  [D+"__schedulers.hpp: get_completion_scheduler_t", D+"__continues_on.hpp: __attrs", D+"__sequence.hpp: __attrs", D+"__starts_on.hpp", D+"__on.hpp"])
p("C75","on goes there and comes back",
  "on(sch, sndr) runs sndr on sch's context, with sch as start scheduler, and completes on the context it was started on; sndr | on(sch, closure) runs the closure on sch's context and completes where sndr completed.",
  "every sender, scheduler, closure and starting context", SCHED,
  [D+"__on.hpp: on_t", D+"__starts_on.hpp", D+"__continues_on.hpp"])
p("C76","co_await in a task resumes where the task runs",
  "After co_await of any sender in a task, the coroutine continues on the context of the task's scheduler.",
  "every awaited sender, every channel it completes on", SCHED,
  [D+"__affine.hpp: affine_t", "include/exec/task.hpp: await_transform", D+"__task.hpp"])
p("C77","A sender that is awaited inline completes inline",
  "When awaiting a sender keeps the operation state on the stack of await_suspend, because the sender claims to complete inline, it does complete before that frame is left, on the same thread.",
  "every sender that makes the claim", SCHED,
  [D+"__as_awaitable.hpp: __sender_awaitable", D+"__completion_behavior.hpp: __completes_inline"])
p("C78","The start scheduler in the environment is where the work was started",
  "If an operation is started on the context its environment names as start scheduler, so are all the operations it starts in turn.",
  "every sender and every operation nested in it, every execution", SCHED,
  [D+"__let.hpp", D+"__starts_on.hpp", D+"__sequence.hpp", D+"__queries.hpp: get_start_scheduler"])
p("C79","Device memory resources hand out disjoint, aligned, owned memory and give it all back",
  "Every block the stream context's memory resources hand out is aligned, lies inside memory obtained from CUDA, and does not overlap any other block in use; deallocated blocks are reused; on destruction everything obtained from CUDA is given back exactly once; allocation fails only if CUDA or a container does.",
  "every sequence of allocations and deallocations of any sizes, every pattern of upstream failures", "histories are unbounded, and failures of cudaMalloc cannot be provoked at every point",
  ["include/nvexec/detail/memory.cuh: monotonic_buffer_resource, synchronized_pool_resource, resource_storage"])
p("C80","Tasks pushed by the GPU are executed once, in order, and never touched after they are freed",
  "Every continuation pushed from device code is executed by the polling thread exactly once, after its push began, in push order, is freed once after it was executed and never accessed afterwards; when the polling thread has exited all tasks have been executed.",
  "every number of producers and tasks, every interleaving of the producers' atomic steps with the poller's and with destruction", SCHED,
  ["include/nvexec/detail/queue.cuh: producer, poller, task_hub", "include/nvexec/stream/common.cuh: continuation_task"])
p("C81","A GPU bulk visits every index exactly once, after its predecessor and before its successor",
  "On the stream scheduler, bulk(shape, f) calls f exactly once with each index in [0, shape) and with no other, on one device as on several, where the shares differ by at most one; no call starts before the predecessor's work is finished and nothing enqueued after the bulk starts before all calls are finished.",
  "every integral shape type and shape, every number of devices, every current device, every state of the streams", "shapes up to 2^64 and numbers of devices cannot be enumerated; the order of work on several streams is not observable in a test",
  ["include/nvexec/stream/bulk.cuh: _bulk_kernel, _multi_bulk_kernel, even_share, receiver::set_value"])
p("C82","GPU when_all waits for all children and reports the right result",
  "when_all of stream senders completes its receiver exactly once, after every child has completed: with all values in order, after their copies were made, if all children had values; with the first child's error (after asking the others to stop) or with stopped otherwise; with a CUDA error only if a CUDA call failed. It does not touch its operation state afterwards.",
  "every number of children, every outcome of each, every interleaving with stop requests, every pattern of CUDA failures and every speed of the GPU", SCHED,
  ["include/nvexec/stream/when_all.cuh: opstate", "include/stdexec/stop_token.hpp: __forward_stop_request"])
p("C83","GPU ensure_started completes its receiver once, with the result of the child it started",
  "ensure_started on a stream context starts its child at once. A connected and started operation completes its receiver exactly once: with the child's result, with a CUDA error only if a CUDA call failed, with stopped without the child only if a stop was requested on the receiver's token. A sender or operation dropped without being started asks the child to stop. The state shared with the child is destroyed exactly once, after both are done with it, and is not used afterwards. Nothing waits forever.",
  "every interleaving of the child's completion, start, destruction, stop requests and GPU progress, every outcome of the child, every pattern of CUDA failures, spurious compare-exchange failures included", SCHED,
  ["include/nvexec/stream/ensure_started.cuh: receiver, sh_state, opstate, ensure_started_sender", "include/stdexec/stop_token.hpp: __forward_stop_request"])
p("C84","GPU split starts its child at most once and gives all its receivers the same result",
  "split on a stream context starts its child at most once, when the first operation is started, and not at all if a stop was already requested. Every operation that is started is completed exactly once, before or after the child, and all with the same result: the child's, or stopped if it was not started. The shared state is destroyed exactly once, when the sender and all operations are gone, and is not used afterwards. Nothing waits forever.",
  "every number of operations, every interleaving of connect, start, completion, destruction, stop requests and GPU progress, every outcome of the child, every pattern of CUDA failures", SCHED,
  ["include/nvexec/stream/split.cuh: receiver, sh_state, opstate, split_sender", "include/stdexec/stop_token.hpp: __forward_stop_request"])
p("C85","GPU sync_wait returns what the sender completed with and does not outlive itself",
  "sync_wait on a stream context returns only after the sender has completed and the stream was synchronised; it returns the values, returns an empty optional for stopped, or throws the sender's error or the CUDA error of the synchronisation. It does return. The thread that completes the sender does not use the local variables of sync_wait after it has returned.",
  "every completion on any thread at any time after start, inline included, every status of the stream, any work scheduled on the loop meanwhile, every interleaving", SCHED,
  ["include/nvexec/stream/sync_wait.cuh: receiver, sync_wait_t::operator()", "include/stdexec/__detail/__run_loop.hpp"])
p("C86","GPU repeat_n runs its child the right number of times, one at a time, in bounded stack",
  "repeat_n on a stream context runs its child exactly n times if every run succeeds and then completes with a value; otherwise it completes with the first error or stopped and makes no further run. The receiver is completed exactly once; at most one run is connected at a time. The stack used does not grow with n, and what the receiver is given still exists when it is given.",
  "every n, every outcome of every run, completions inside start() or later, throwing connect and copy, stream and other receivers, every interleaving with the kernel that delivers the result", SCHED,
  ["include/nvexec/stream/repeat_n.cuh: opstate::_complete, start", "include/nvexec/stream/common.cuh: propagate_completion_signal"])
p("C87","A GPU stream serves one operation at a time and none is lost",
  "The stream pools of a stream context lend a CUDA stream of the requested priority to each operation; no stream is lent to two operations at once; streams given back are reused, so that no more are created than were in use at one time; the deferred clean-up of an operation is run once, in order, before its stream is given back; when the context is destroyed every stream created is destroyed exactly once and nothing else is. An operation for which no stream could be created has an error status.",
  "every number of operations and priorities, every order of their creation and destruction, every pattern of failures of cudaStreamCreateWithPriority", SCHED,
  ["include/nvexec/stream/common.cuh: stream_pools, stream_provider"])
p("C88","A chain of then, upon_error and upon_stopped on a GPU stream delivers what the functions compute",
  "A chain of any length of then / upon_error / upon_stopped on a stream completes once with what applying the functions in turn to the head's completion gives, or with the CUDA error of the call that failed; no kernel reads storage before it was written, after it was freed, or variables of a host function that has returned; every allocation is freed once with its size; every result that needs a destructor is destroyed once and nothing else is.",
  "every number and kinds of stages, all functions, every completion of the head, every pattern of failing launches and allocations, every speed of the GPU relative to the host", "kernels run asynchronously to the host: whether the reference a kernel was given is still valid when it runs depends on timing no test controls",
  ["include/nvexec/stream/then.cuh: receiver", "include/nvexec/stream/upon_error.cuh: receiver", "include/nvexec/stream/upon_stopped.cuh: receiver", "include/nvexec/stream/common.cuh: opstate_base, opstate"])
p("C89","Timed schedulers are ready at the time asked for",
  "An operation made by schedule_at(t) becomes ready when t has come (or at once if t is past), one made by schedule_after(d) when d has passed since start; not earlier, and not later than the clock allows, for every time point and duration the types can express.",
  "every time of call, connect and start, every time point and duration, every timed scheduler: timed_thread_context, the fallbacks of schedule_at and schedule_after, io_uring with and without timerfd, the Windows thread pool", "the domain is all 64-bit durations and time points; the interesting ones (max, min, minus now) wait for centuries or are undefined behaviour",
  ["include/exec/timed_scheduler.hpp: __schedule_after_from_at, __schedule_at_from_after", "include/exec/timed_thread_scheduler.hpp: schedule_at", "include/exec/linux/io_uring_context.hpp: __schedule_after_operation, schedule_at", "include/exec/windows/filetime_clock.hpp: time_point", "include/exec/windows/windows_thread_pool.hpp: schedule_at, schedule_after"])
p("C90","The random numbers of work stealing do not degenerate",
  "The generator that chooses the victims of work stealing is a permutation of its states: it never loses entropy, comes back to its first state, is never stuck in the state 0 if it was seeded with something else, discard(n) equals n calls, over a period of all states every result occurs equally often; different seeds give different sequences.",
  "every seed, every number of calls", "the state space has 2^64 elements",
  ["include/exec/detail/xorshift.hpp: xorshift"])
p("C91","schedule_all hands every element of a range over exactly once",
  "The sequence schedule_all(pool, range) calls set_next once for each element in order, delivers every element whose sender asks for it exactly once on the pool, even if that sender starts the item later and on another thread, and completes exactly once: with a value when all senders have completed, with an error if and only if connecting threw, in which case nothing is delivered. It always terminates, and nothing of it touches the operation state after the receiver was completed and destroyed it.",
  "every number of elements and threads, every behaviour of the senders made by set_next, every interleaving of the starting thread, the pool and other threads", SCHED,
  ["include/exec/static_thread_pool.hpp: schedule_all_::_static_thread_pool::sequence, opstate, item_opstate, next_receiver"])

p("C92","when_all publishes its results under the C++ memory model",
  "Whatever values the relaxed and acquire loads of the C++ memory model return: in a when_all whose children complete on different threads while its stop callback may be called (while a child has yet to complete), no access to a child's stored values, to the stored error or to the operation state races with another; nothing touches the operation state after it was released by the completion; the receiver is completed at most once, with all children's values in order, one child's error, or stopped only if a child was stopped or stop requested, and no value is lost although the states are exchanged with weaker orders. The acquire-release decrement of the count is what this rests on: any weaker order makes it false.",
  "every number of children, every combination of their completions, every interleaving and every choice of the message read by each atomic load that the C++ memory model allows",
  "tests run on one machine whose memory model is stronger than C++'s; a data race need not show",
  ["include/stdexec/__detail/__when_all.hpp: __when_all_state::__arrive, __complete, __receiver"])
p("C93","Reference-counted lifetimes end without a data race",
  "Where the last of several owners on different threads destroys the shared object, every use of the object by any owner happens before its destruction, the destruction takes place once, last, when nobody owns the object, and it does take place when all owners are gone. This holds for every operation that counts owners (intrusive_ptr, when_any, async_scope, schedule_all, timed_thread_context).",
  "every number of owners and of references handed on, every interleaving, every read the C++ memory model allows",
  "relaxed and acquire-release decrements compile to the same instruction on x86; tests there cannot tell them apart",
  ["include/stdexec/__detail/__intrusive_ptr.hpp: __release_","include/exec/when_any.hpp: __op_base","include/exec/async_scope.hpp: __when_empty_op, __nest_rcvr","include/exec/static_thread_pool.hpp: schedule_all_ item_opstate","include/exec/timed_thread_scheduler.hpp: timed_thread_schedule_at_op, timed_thread_context"])

p("C94","Stop callbacks synchronise under the C++ memory model",
  "Whatever values the C++ memory model lets atomic loads return: while one thread requests stop and others construct stop callbacks, destroy them or poll stop_requested, no two accesses to a callback, to the list of callbacks or to the callers' data race; a callback is executed at most once and never touched after its destruction; its construction happens before its execution, wherever it runs; its execution happens before its destructor returns; and what the requester wrote before request_stop happens before whatever a thread does that saw the request - in stop_requested, in a callback called by request_stop, or in a callback executed by its own constructor.",
  "every number of callbacks and threads, callbacks that destroy themselves and that do not, every interleaving, every read and every modification order the C++ memory model allows",
  "missing synchronisation shows as a rare data race on weakly ordered hardware, if at all",
  ["include/stdexec/stop_token.hpp: inplace_stop_source, inplace_stop_callback"])

p("C95","Lock-free node queues synchronise under the C++ memory model",
  "Whatever values the C++ memory model lets atomic loads return: when threads push nodes on a lock-free queue (run_loop's or the thread pool's) and threads take the whole list, nothing races: what a producer wrote before it pushed a node happens before the use of the node by the thread that took it. No node is used twice, only pushed nodes are, none is lost, and a taken list holds exactly the nodes pushed since the list was taken before, in the order of the pushes.",
  "every number of producers and takers, every interleaving, every read and every modification order the C++ memory model allows",
  "missing synchronisation shows as a rare data race on weakly ordered hardware, if at all",
  ["include/stdexec/__detail/__atomic_intrusive_queue.hpp: push, pop_all","include/exec/detail/atomic_intrusive_queue.hpp: push_front, try_push_front, pop_all, pop_all_reversed"])

p("C96","The MPSC command queue synchronises under the C++ memory model",
  "Whatever values the C++ memory model lets atomic loads return: when threads push nodes on the intrusive MPSC queue and one thread pops, nothing races: what a producer wrote in a node, and every access to the node by another producer, happens before the consumer gets the node; nobody touches a node after it has been popped and used. Nodes are popped in the order in which the pushes took effect, none twice, none that was not pushed; and none is lost: when no push is under way, the consumer can go on until every pushed node was popped.",
  "every number of producers, every interleaving, every read and every modification order the C++ memory model allows",
  "missing synchronisation shows as a rare data race on weakly ordered hardware, if at all",
  ["include/stdexec/__detail/__intrusive_mpsc_queue.hpp: push_back, pop_front"])

p("C97","Awaiting a sender synchronises under the C++ memory model",
  "Whatever values the C++ memory model lets atomic loads return: when a coroutine awaits a sender whose operation completes inside start, later on the same thread, or at any time on another thread, the coroutine is resumed exactly once, and only after the operation has completed; whoever resumes it has everything that was done to the awaiter and the coroutine frame, the store of the result among it, ordered before the resumption; and nothing touches the awaiter or the frame afterwards, so that the resumed coroutine may destroy them.",
  "every place and time of completion, every interleaving, every read and every modification order the C++ memory model allows",
  "missing synchronisation shows as a rare data race on weakly ordered hardware, if at all",
  ["include/stdexec/__detail/__as_awaitable.hpp: __sender_awaiter::await_suspend, __async_receiver::__done"])

p("C98","A run_loop ends properly under the C++ memory model",
  "Whatever values the C++ memory model lets atomic loads return: when operations are started on a run_loop from any number of threads and from its own tasks, and finish is called from another thread, run does not return before finish has returned and exactly the tasks that were started have been executed; it does not sleep through finish; it can always go on until it returns; and when it has returned, destroying the loop races with nothing that finish did, nor with the counting and the pushing of any operation.",
  "every number of threads, every number of operations started by tasks, every interleaving, every read and every modification order the C++ memory model allows",
  "missing synchronisation shows as a rare early return or data race on weakly ordered hardware, if at all",
  ["include/stdexec/__detail/__run_loop.hpp: run, finish, __execute_all, __opstate_t::start", "include/stdexec/__detail/__atomic_intrusive_queue.hpp: push, pop_all, wait_for_item"])

p("C99","A counting scope joins properly under the C++ memory model",
  "Whatever values the C++ memory model lets atomic loads return: when operations associate with a counting scope from any number of threads and end, while join operations are started from any number of threads and the scope is closed, then a join operation that completes does so after the last association has ended, no association can be made afterwards, and everything any associated operation did happened before the completion; every join operation that was started can still complete, however the threads were interleaved; and destroying the scope once every started join operation is known to have completed does not terminate the program, races with nothing and touches nothing freed.",
  "every number of associations and join operations, every interleaving, every read and every modification order the C++ memory model allows",
  "missing synchronisation shows as a rare data race or lost join on weakly ordered hardware, if at all",
  ["include/stdexec/__detail/__counting_scopes.hpp: __try_associate, __disassociate, __start_join_sender, __register, __dequeue_registered_join_operations, __complete_registered_join_operations, close, destructor"])

p("C100","Work for chosen NUMA nodes is dealt out to their threads in turn",
  "The default NUMA policy gives thread number i of a pool the node of processor number i (starting again when every processor has a thread), so that a pool with as many threads as processors has on every node as many threads as the node has processors. A task started on a scheduler constrained to some nodes is given to a thread of the pool, to one on an allowed node if the pool has any there, and to the calling thread if that is one; of as many such tasks in a row from one thread outside these nodes as there are threads on allowed nodes, each of these threads gets exactly one; if there are none, all threads of the pool take turns. An idle thread steals from every other thread, from those on its own node first, so the constraint says where a task is queued, not where it runs.",
  "every machine (numbers of nodes and processors), every number of threads, every policy that names existing nodes (where stated, every policy at all), every set of allowed nodes, every order in which the sort leaves threads of one node, every calling thread and counter value",
  "tests run on one machine, usually with one node",
  ["include/exec/detail/numa.hpp: _node_to_thread_index::get, default_numa_policy::thread_index_to_node", "include/exec/static_thread_pool.hpp: _static_thread_pool constructor, num_threads, get_thread_index, random_thread_index_with_constraints, enqueue, victims"])

p("C101","Customised algorithms are chosen by the domains, completely and in the right order",
  "The sender that connect uses comes from the sender it was given by the transformations of the domain on which the sender completes, each new sender being asked anew for its domain, until the type no longer changes, and then by the transformations of the domain of the place where it is started, until the type no longer changes; the same transformations applied once more would change nothing. A sender that nobody customises is used as it is; where different domains meet, the program compiles only if none of them would have chosen anything else; if each transformation brings some measure down, instantiation ends. An exception thrown by a transformation reaches the caller of connect.",
  "every sender, every set of domains and transformations, every environment, every limit on the depth of instantiation",
  "each test instantiates one tree of types",
  ["include/stdexec/__detail/__transform_sender.hpp: __transform_sender, transform_sender_t", "include/stdexec/__detail/__domain.hpp: default_domain, indeterminate_domain, __default_domain_like"])

p("C102","Handles of operating-system resources give back what they own exactly once",
  "In any program of constructions, moves, assignments (also of an object to itself), resets and destructions, a descriptor or mapping is held exactly as long as one object owns it, is given back exactly once, and is given back in the end; the conversion to bool says whether there is one. Setting up an io_uring_context maps all three parts of the ring with enough room for them, and if any of its system calls fails, everything it has acquired is given back before the exception leaves the constructor, once.",
  "every program, every number of objects, every reuse of descriptor numbers and addresses, every combination of failing system calls",
  "a test sees one program; a leak or a second close of a reused number shows only under other programs and failures",
  ["include/exec/linux/detail/safe_file_descriptor.hpp: safe_file_descriptor", "include/exec/linux/detail/memory_mapped_region.hpp: memory_mapped_region", "include/exec/linux/io_uring_context.hpp: __context_base, __map_region, __io_uring_setup"])
p("C103","The rings shared with the kernel are bounded queues",
  "Entries come out of the submission ring and the completion ring in the order in which they were put in, each once, for any initial value of the 32-bit indices and any number of wrap-arounds, however stale the other side's index is when it is read; an entry is overwritten only after its consumption was published and seen, and read only after it was published and seen; all entries of the ring can be used; equal indices mean an empty ring.",
  "every power of two of entries up to 2^31, every initial index, every interleaving of the two sides, every stale value that coherence allows",
  "the indices wrap after 2^32 operations, and stale values depend on the hardware",
  ["include/exec/linux/io_uring_context.hpp: __submission_queue::submit, __completion_queue::complete"])

p("C104","GPU let_value, let_error and let_stopped run the chosen continuation",
  "On a GPU stream: if the first sender completes on the algorithm's channel, the function is called exactly once, on the device, with what was delivered, and the receiver gets exactly the completion of the sender that it returns; a completion on another channel is passed on unchanged; a failure of the CUDA runtime is delivered as an error. The returned sender is constructed before it is connected and destroyed once, after the completion; the temporary storage is given back once, with its size; the delivered values stay usable until the receiver is completed.",
  "every first and second completion, every function, every failure of allocation, launch and synchronisation, every size of the returned senders",
  "launches and allocations do not fail in tests, and storage errors on the device go unnoticed",
  ["include/nvexec/stream/let_xxx.cuh: _let_kernel, _receiver, _opstate", "include/nvexec/stream/common.cuh: opstate, opstate_base::defer_temp_storage_destruction"])

p("C105","Transfers to and from a GPU stream deliver what was sent, once",
  "continues_on to a stream delivers the completion of its sender unchanged, once, from storage of the operation, or the error of the first call of the CUDA runtime that fails; the storage is constructed once, destroyed once where it was constructed, and deallocated once, last. schedule_from, which leaves a stream, and every stream algorithm that follows a sender of another kind, completes once on the host with what was delivered (an exception as cudaErrorUnknown), or with the error of its set-up, and frees what it has allocated exactly once, also if it is never started.",
  "every completion, every kind of value, every failure of an allocation, launch or call of the runtime, started or not",
  "the calls do not fail in tests, and leaks of pinned memory and destructors on the wrong side go unnoticed",
  ["include/nvexec/stream/continues_on.cuh: _trnsfr::receiver", "include/nvexec/stream/schedule_from.cuh: _schfr::opstate", "include/nvexec/stream/common.cuh: opstate, stream_enqueue_receiver, continuation_task"])

p("C106","An optional that survives its constructor: no object is lost, none destroyed twice",
  "Whatever calls are made of stdexec's optional, with constructors that succeed, that throw, or that start work which completes at once and destroys the owner of the optional: no object is destroyed that is not alive, none is constructed over a living one, nothing of the optional is touched once it is gone, and each object is destroyed exactly once; has_value and value tell what is held; a throwing emplace leaves it empty.",
  "every sequence of emplace and reset, each constructor succeeding, throwing or destroying the owner",
  "the use after free that emplace is written to avoid shows up only if the owner dies inside the constructor, and often not even then",
  ["include/stdexec/__detail/__optional.hpp: __optional, emplace, reset", "include/stdexec/__detail/__scope.hpp: __scope_guard", "include/stdexec/__detail/__manual_lifetime.hpp: __manual_lifetime"])
p("C107","A static vector is a list of bounded length",
  "A static vector made from a list holds its first N elements; erase removes exactly the elements from first to last, keeps the rest in order and leaves no moved-from element among them; operator+ concatenates; nothing outside the array is touched; the size never exceeds the capacity. erase returns the position after the last element removed, as the standard containers do.",
  "every capacity, content and range",
  "tests use a few short lists, and erase is called only at the end of one",
  ["include/stdexec/__detail/__static_vector.hpp: __static_vector, erase, operator+"])

p("C108","A sender made from a function: called once, its result kept until the end",
  "Starting a sender made with create calls the function once, first, with the arguments given; the receiver is completed as the function completes it, never by create; what the function returns is kept in the operation until that is destroyed, and destroyed with it, once; nothing is written into the operation after its owner, who may do so once the receiver is completed, has destroyed it.",
  "every function, completing before or after it returns, returning something or nothing, and every owner",
  "a write into freed memory when the function completes at once is silent, and most test receivers do not destroy the operation",
  ["include/exec/create.hpp: __opstate::start, __sender::connect"])
p("C109","just_from completes with what the sink is called with",
  "If the function given to just_from, just_error_from or just_stopped_from calls its sink exactly once, the receiver is completed exactly once, on the channel of the algorithm, with the arguments of the sink; a function that throws instead delivers the exception as an error; whatever may happen is declared in the completion signatures; only a noexcept function that throws ends the program.",
  "every function: any calls of the sink, throwing or not, declared noexcept or not",
  "tests use functions that call the sink and return",
  ["include/exec/just_from.hpp: _opstate::start, _complete_fn, _completions"])

p("C110","The multi-GPU context: access between exactly the devices that reach one another",
  "Making a multi-GPU context asks for access for exactly those ordered pairs of different devices that can reach one another, each once, and leaves the current device what it was; its schedulers are equal if and only if they belong to the same context and have the same priority; an operation of a scheduler that is started completes once, with the error if its stream could not be created, and a stream that was created is destroyed once, last.",
  "every number of devices, every relation of reachability, every failure of the runtime, every operation",
  "test machines have one GPU or two, and the calls do not fail",
  ["include/nvexec/multi_gpu_context.cuh: multi_gpu_stream_context, multi_gpu_stream_scheduler"])

p("C111","reduce on a GPU delivers the sum of the range, or the first error, once",
  "reduce on a stream completes its receiver exactly once: with the reduction of the range and the initial value (the initial value alone for an empty range), with the first error of the CUDA runtime, or with the error or stopped of its sender; the result does not depend on how an associative function's range is split; the range is not looked at before it is there; a result is destroyed once and its storage given back once, last; temporary storage is freed.",
  "every range, element type, associative function, every combination of failures of the runtime",
  "the calls do not fail in tests and a leak of device memory is not noticed",
  ["include/nvexec/stream/reduce.cuh: reduce_::receiver::set_value_impl", "include/nvexec/stream/algorithm_base.cuh: __algo_range_init_fun::receiver"])

p("C112","connect does what is documented and declares what it does",
  "connect transforms the sender once, first, and then connects it once, in the first of the documented ways that it offers: static member, member, awaitable, tag_invoke. What is offered in several ways is never ambiguous; the declared return type is the type returned; if connect is declared noexcept nothing it calls throws, and it is so declared whenever the transformation and the way used are, except for awaitables; only what offers no way is rejected.",
  "every combination of ways that a sender offers, of exception specifications and of types",
  "tests connect senders that offer one way; the declared and the actual dispatch are two pieces of code",
  ["include/stdexec/__detail/__connect.hpp: connect_t, __connect_declfn_v"])

p("C113","A pipeline means what it reads from left to right, however it is put in parentheses",
  "A pipeline of a sender and closures has the value of its algorithms applied to the sender from left to right, whatever the parentheses; a closure that is an lvalue is unchanged by being used and may be used any number of times; one that is not gives all its arguments up to the sender; no argument that has been moved from gets into a sender.",
  "every pipeline: any number of closures, any parentheses, any of them lvalues",
  "tests write pipelines of a few steps without parentheses, with copyable arguments",
  ["include/stdexec/__detail/__sender_adaptor_closure.hpp: __closure, __compose, operator|"])

p("C114","The variant of the GPU back end holds what was put into it last, and destroys it once",
  "A visitor of an nvexec::variant_t is called exactly once, with the object that was made last and with its own type, and not at all after a constructor has thrown or after destroy; every object that is made in it is destroyed exactly once, at the latest with the variant; the storage is large enough and aligned for every type.",
  "every list of types, repeated ones included, and every history of emplace, construct, destroy and visit with any constructors throwing",
  "tests use a few types and a handful of operations, and no throwing constructors",
  ["include/nvexec/detail/variant.cuh: variant_t, visit", "include/stdexec/__detail/__utility.hpp: __umax"])

p("C115","A profiler range is closed on the stack it was opened on, and covers what it is put around",
  "nvexec::nvtx::scoped opens its range when the sender before it completes, with whatever completion, and closes it when the closure completes, with whatever completion; it changes neither the completion nor the functions called nor their threads; all ranges of all threads are afterwards as they were before; and every function the closure calls is called inside the range.",
  "every sender, every closure of any size with scopes in it, every completion, every thread",
  "tests look at one value completion and cannot see the stacks of the profiler",
  ["include/nvexec/nvtx.cuh: push, pop, scoped"])
import sys
with open('/verif/properties.jsonl','w') as f:
    for x in P: f.write(json.dumps(x)+"\n")
print(len(P))
