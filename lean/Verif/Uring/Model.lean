import Verif.Common
import Verif.Count
/-!
# `exec::io_uring_context` (`exec/linux/io_uring_context.hpp`)

Any number `n` of operations, each started once by some thread (possibly inside a completion handler on the
driving thread); any number of `request_stop`, `finish` and `reset` calls; one driving thread; the kernel.

Simplifications: the request queue's `push_front` and `pop_all_reversed` are single steps (C11); the kernel is a
submission ring, a set of operations in progress, and a completion ring, entries being completed in any order; an
I/O error of `io_uring_enter` is not modelled; the operation's own stop callbacks are C56.
-/
namespace Verif.Uring

/-- What a task answers to `__ready_` and `__submit_` (`:155-169`). -/
inductive Kind
  | ready    -- `schedule()`: `__ready_` returns true (`:844-847`)
  | io       -- an I/O operation
  | cancel   -- an I/O operation whose opcode is `IORING_OP_ASYNC_CANCEL` (`:909-910`)
  deriving DecidableEq, Repr

/-- `__task*`: the wake-up operation of the context, or an operation. -/
inductive T
  | wake
  | op (i : Nat)
  deriving DecidableEq, Repr

/-- Where the thread that starts an operation is (`__io_task_facade::start`, `:814-824`, `submit`, `:470-499`). -/
inductive OPc
  | idle
  | acc      -- `__n_submissions_in_flight_` was incremented
  | pushed   -- pushed onto `__requests_`
  | wk       -- `__n_submissions_in_flight_` was decremented; before `try_wakeup`
  | ret      -- `start()` has returned
  deriving DecidableEq, Repr

/-- The four calls of `__completion_queue::complete`. -/
inductive CAt
  | first   -- `:507`
  | again   -- `:522`
  | after   -- `:591`
  | last    -- `:623`
  deriving DecidableEq, Repr

/-- The four calls of `__requests_.pop_all_reversed`. -/
inductive PAt
  | init    -- `:567`
  | some    -- `:511`, `:525`
  | after   -- `:593`
  | last    -- `:616`
  deriving DecidableEq, Repr

/-- Where the driving thread is. -/
inductive Pc
  | idle
  | start          -- `:547-562`, `__is_running_` is set
  | pop (k : PAt)
  | test           -- `:568`, the loop condition
  | cq (k : CAt)   -- `:314-327`, the loop over the completion ring
  | rdy (k : CAt)  -- `:328-334`, the loop over the ready tasks
  | rd             -- `:512-515`, reads the stop state, `:239-246`
  | sub (f : Bool) -- `:247-275`, first loop of `submit`; `f`: in the final call (`:617-620`)
  | sub2 (f : Bool) -- `:277-288`, second loop of `submit`
  | chk            -- `:571-578`
  | enter          -- `:581`, calling `io_uring_enter`
  | wait           -- in the kernel, waiting for a completion
  | ex             -- `:596`, after the loop
  | cls            -- `:599-613`, closing the door
  | ret            -- `:565-566`
  deriving DecidableEq, Repr

structure St where
  n : Nat                -- (constant) the number of operations
  kind : Nat → Kind      -- (constant)
  cap : Nat              -- (constant) `__params_.cq_entries`
  slots : Nat            -- (constant) `__params_.sq_entries`
  opc : Nat → OPc
  req : List Nat         -- `__requests_`, newest first
  infl : Nat             -- `__n_submissions_in_flight_`, unless closed
  closed : Bool          -- it is `__no_new_submissions`
  stopReq : Bool         -- `__stop_source_->stop_requested()`
  brk : Bool             -- `__break_loop_`
  oweS : Nat             -- calls of `request_stop` before their `try_wakeup`
  oweF : Nat             -- calls of `finish` before their `wakeup`
  efd : Bool             -- the eventfd is readable
  pc : Pc
  pend : List T          -- `__pending_`
  total : Nat            -- `__n_total_submitted_`
  newly : Nat            -- `__n_newly_submitted_`
  sq : List T            -- the submission ring
  ring : List T          -- what the kernel works on
  cq : List T            -- the completion ring
  tasks : List T         -- locals of `submit` …
  out : List T           -- … `__result.__pending`
  ready : List Nat       -- … `__result.__ready`
  nsub : Nat             -- … `__result.__n_submitted`
  mx : Nat               -- … `__max_submissions`
  stp : Bool             -- … `__is_stopped`
  done : Nat → Nat       -- how often the operation's receiver was completed
  inl : Nat → Bool       -- the last time by `start()` itself
  stopd : Nat → Bool     -- the last time with `set_stopped` (or, for I/O, `-ECANCELED` from the context)
  -- history
  fresh : Bool           -- not yet driven since construction or `reset`
  everStop : Bool
  everBrk : Bool
  bad : Bool             -- the wake-up operation was linked twice
  leak : Nat             -- entries submitted by the final call of `submit` (`:621` asserts that there are none)
  lost : List T          -- tasks it left pending (`:622` asserts that there are none)

def init (n : Nat) (kind : Nat → Kind) (cap slots : Nat) : St :=
  { n := n, kind := kind, cap := cap, slots := slots
    opc := fun _ => .idle, req := [], infl := 0, closed := false, stopReq := false, brk := false
    oweS := 0, oweF := 0, efd := false, pc := .idle, pend := [], total := 0, newly := 0
    sq := [], ring := [], cq := [], tasks := [], out := [], ready := [], nsub := 0, mx := 0, stp := false
    done := fun _ => 0, inl := fun _ => false, stopd := fun _ => false
    fresh := true, everStop := false, everBrk := false, bad := false, leak := 0, lost := [] }

/-- `__wakeup_operation::start` (`:744-750`). -/
def wakeStart (s : St) : St :=
  if s.stopReq then s
  else { s with pend := .wake :: s.pend, bad := s.bad || decide (T.wake ∈ s.pend) }

/-- The receiver of operation `i` is completed; `c`: with `-ECANCELED` (`:851-862` for `schedule`). -/
def finOp (s : St) (i : Nat) (c inl : Bool) : St :=
  { s with
      done := upd s.done i (s.done i + 1)
      inl := upd s.inl i inl
      stopd := upd s.stopd i (c || (decide (s.kind i = .ready) && s.stopReq)) }

/-- `__vtable_->__complete_`. -/
def comp (s : St) (t : T) (c : Bool) : St :=
  match t with
  | .wake => wakeStart s
  | .op i => finOp s i c false

/-- `__vtable_->__ready_`. -/
def isReady (s : St) : T → Bool
  | .wake => false
  | .op i => decide (s.kind i = .ready)

/-- Is the opcode `IORING_OP_ASYNC_CANCEL`? -/
def isCancel (s : St) : T → Bool
  | .wake => false
  | .op i => decide (s.kind i = .cancel)

def ids : List T → List Nat
  | [] => []
  | .wake :: l => ids l
  | .op i :: l => i :: ids l

/-- The code after a `pop_all_reversed`; for the last one, the final call of `submit` (`:616-620`). -/
def afterPop (s : St) : PAt → St
  | .init => { s with pc := .test }
  | .some => { s with pc := .rd }
  | .after => { s with pc := .test }
  | .last =>
    { s with
        tasks := s.pend, pend := [], stp := true, nsub := 0
        mx := min s.cap (s.slots - s.sq.length), pc := .sub true }

/-- The code after a `complete`. -/
def afterComplete (s : St) : CAt → St
  | .first => { s with pc := .pop .some }
  | .again => { s with pc := .pop .some }
  | .after => { s with pc := .pop .after }
  | .last => { s with pc := .ret }

/-- One iteration of the first loop of `submit` (`:249-274`). -/
def subOne (s : St) (t : T) (r : List T) : St :=
  if isReady s t then { s with tasks := r, ready := s.ready ++ ids [t] }
  else if s.stp && !isCancel s t then comp { s with tasks := r } t true
  else { s with tasks := r, stp := false, sq := s.sq ++ [t], nsub := s.nsub + 1 }

/-- One step of the driving thread. -/
def drv (s : St) : Option St :=
  match s.pc with
  | .idle => none
  | .start =>
    if s.closed then some { s with stopReq := false, closed := false, pc := .pop .init }
    else some { wakeStart s with pc := .pop .init }
  | .pop k => some (afterPop { s with pend := s.pend ++ s.req.reverse.map .op, req := [] } k)
  | .test => some { s with pc := if 0 < s.total ∨ s.pend ≠ [] then .cq .first else .ex }
  | .cq k =>
    match s.cq with
    | [] => some { s with pc := .rdy k }
    | t :: r => some (comp { s with cq := r, total := s.total - 1 } t false)
  | .rdy k =>
    match s.ready with
    | [] => some (afterComplete s k)
    | i :: r => some (finOp { s with ready := r } i false false)
  | .rd =>
    some { s with
      tasks := s.pend, pend := [], stp := s.stopReq, nsub := 0
      mx := min (s.cap - s.total) (s.slots - s.sq.length), pc := .sub false }
  | .sub f =>
    match s.tasks with
    | [] => some { s with pc := .sub2 f }
    | t :: r => if s.nsub < s.mx then some (subOne s t r) else some { s with pc := .sub2 f }
  | .sub2 f =>
    match s.tasks with
    | [] =>
      if f then
        some { s with
          pend := [], out := [], leak := s.leak + s.nsub, lost := s.lost ++ s.out ++ s.pend, nsub := 0, mx := 0
          pc := .cq .last }
      else some { s with
        pend := s.out, out := [], total := s.total + s.nsub, newly := s.newly + s.nsub, nsub := 0, mx := 0
        pc := if s.ready = [] then .chk else .cq .again }
    | t :: r =>
      if isReady s t then some { s with tasks := r, ready := s.ready ++ ids [t] }
      else some { s with tasks := r, out := s.out ++ [t] }
  | .chk =>
    if s.total = 0 ∨ (s.total = 1 ∧ s.brk = true) then some { s with brk := false, pc := .ex }
    else some { s with pc := .enter }
  | .enter => none
  | .wait => if s.cq = [] then none else some { s with pc := .cq .after }
  | .ex => some { s with pc := if s.stopReq = true ∧ s.pend = [] then .cls else .ret }
  | .cls => if s.infl = 0 then some { s with closed := true, pc := .pop .last } else none
  | .ret => some { s with pc := .idle }

/-- The actions. Lines as in the comments of `step`. -/
inductive Act
  | run (e : Bool)     -- `run_until_stopped()`, or (`e`) `run_until_empty()`
  | drv                -- the next step of the driving thread
  | enter (k : Nat)    -- `io_uring_enter`: the kernel takes `k` entries of the submission ring
  | intr               -- `io_uring_enter` returns early because of a signal
  | kop (i : Nat)      -- the kernel completes operation `i`
  | kwake              -- the kernel completes the read of the eventfd
  | start (i : Nat)    -- `start()` of operation `i`, up to the increment or to completing inline
  | push (i : Nat)
  | dec (i : Nat)
  | wakeOp (i : Nat)
  | reqStop            -- `request_stop()`
  | wakeStop           -- its `try_wakeup`
  | finish             -- `finish()`
  | wakeFin            -- its `wakeup`
  | reset              -- `reset()`, not during a submission or `request_stop`
  deriving DecidableEq, Repr

/-- `run_until_stopped` / `run_until_empty` (`:537-625`, `:716-720`) with `io_uring_enter` (`:581`); `submit` (`:470-500`) with its
    wake-up (`start` of `__io_task_facade`, `:814-824`); `request_stop` (`:440-444`), `finish` (`:463-467`), `reset`
    (`:428-438`), each in two steps: the change of state, then the write to the eventfd. -/
def step (s : St) : Act → Option St
  | .run e =>
    if s.pc = .idle then
      some { s with pc := .start, brk := e || s.brk, everBrk := e || s.everBrk, fresh := false }
    else none
  | .drv => drv s
  | .enter k =>
    if s.pc = .enter ∧ k ≤ s.sq.length ∧ (0 < k ∨ s.sq = []) then
      some { s with
        sq := s.sq.drop k, ring := s.ring ++ s.sq.take k, newly := s.newly - k
        pc := if k = s.sq.length then .wait else .cq .after }
    else none
  | .intr => if s.pc = .wait then some { s with pc := .cq .after } else none
  | .kop i =>
    if .op i ∈ s.ring then some { s with ring := s.ring.erase (.op i), cq := s.cq ++ [.op i] } else none
  | .kwake =>
    if .wake ∈ s.ring ∧ s.efd = true then
      some { s with ring := s.ring.erase .wake, cq := s.cq ++ [.wake], efd := false }
    else none
  | .start i =>
    if i < s.n ∧ s.opc i = .idle then
      if s.closed then some (finOp { s with opc := upd s.opc i .ret } i true true)
      else some { s with opc := upd s.opc i .acc, infl := s.infl + 1 }
    else none
  | .push i =>
    if i < s.n ∧ s.opc i = .acc then some { s with opc := upd s.opc i .pushed, req := i :: s.req } else none
  | .dec i =>
    if i < s.n ∧ s.opc i = .pushed then some { s with opc := upd s.opc i .wk, infl := s.infl - 1 } else none
  | .wakeOp i =>
    if i < s.n ∧ s.opc i = .wk then some { s with opc := upd s.opc i .ret, efd := true } else none
  | .reqStop => some { s with stopReq := true, everStop := true, oweS := s.oweS + 1 }
  | .wakeStop => if 0 < s.oweS then some { s with efd := true, oweS := s.oweS - 1 } else none
  | .finish => some { s with brk := true, everBrk := true, oweF := s.oweF + 1 }
  | .wakeFin => if 0 < s.oweF then some { s with efd := true, oweF := s.oweF - 1 } else none
  | .reset =>
    if s.pc = .idle ∧ s.total = 0 ∧ s.infl = 0 ∧ s.oweS = 0 then
      some { s with closed := false, stopReq := false, fresh := true }
    else none

/-- The discipline: the context is driven once after construction and once after each `reset`. -/
def stepD (s : St) (a : Act) : Option St :=
  match a with
  | .run e => if s.fresh then step s (.run e) else none
  | a => step s a

end Verif.Uring
