import Verif.Common
/-!
# `static_thread_pool`: a worker, its queues and its sleep — model

Models, in `/repo/include/exec/static_thread_pool.hpp`, one worker thread of the pool: `thread_state`
(587-684, 989-1015, 1073-1199), `remote_queue_list` (151-217), the submission functions `enqueue` /
`bulk_enqueue` (891-976) as far as they concern this worker, and `run` (791-806). Any number of other
threads (submitters, other workers, threads calling `request_stop`) act concurrently.

* a remote queue (`atomic_intrusive_queue`, verified in C11) is its list of tasks; `push_front` tells
  whether the queue was empty, `prepend` adds several;
* the local queue (`bwos::lifo_queue`, verified in C39) is its list of tasks, oldest first. What the
  model assumes of it is what C39 proves: `pop_back` takes the newest task and returns null only if the
  queue is empty (`C39_history`); `push_back` of several accepts a prefix, and at least one if the last
  `pop_back` returned null (`C39_push_after_null`); a thief takes one task, but not the one the owner
  pushed last if the owner has not popped since (`C39_push_pop`); a rejected push found the queue
  non-empty (`C39_history`);
* `mut_` is held across steps only by the worker; critical sections of the others are single steps;
* the condition variable may wake up spuriously, `compare_exchange_weak` may fail spuriously;
* which victim is robbed and whether it has a task is the environment's choice; `num_active_`
  (1027-1091) only decides when some thread calls `notify` on a worker without having pushed, which
  any thread may do at any time in the model;
* interleavings are sequentially consistent.
-/
namespace Verif.PoolSleep

abbrev Task := Nat

/-- 651-657 -/
inductive State
  | running | sleeping | notified
  deriving DecidableEq

/-- 145-149 -/
inductive Mode
  | spec | before
  deriving DecidableEq

/-- What the worker is about to do. -/
inductive WPc
  /-- 803 executing a task -/
  | exec
  /-- 1007-1012 `local_queue_.pop_back()` of `try_pop` -/
  | popL
  /-- 180 load the head of the list of remote queues -/
  | ldList (m : Mode)
  /-- 182-190 walk; `acc` are the tasks collected -/
  | scan (m : Mode) (l : List Nat) (acc : List Task)
  /-- 187 speculative mode: the queue looked non-empty, dequeue it -/
  | deq (l : List Nat) (acc : List Task)
  /-- 994-997 `pending_queue_.append`, `move_pending_to_local` -/
  | app (m : Mode) (acc : List Task)
  /-- 998 `local_queue_.pop_back()` of `try_remote` -/
  | popR (m : Mode)
  /-- 1117-1138 the stealing rounds -/
  | stealing
  /-- 1140 lock `mut_` -/
  | lock
  /-- 1141 -/
  | chkStop
  /-- 1145-1149 -/
  | casS
  /-- 1158-1162 -/
  | casR
  /-- 1165 about to `cv_.wait` -/
  | wait
  /-- inside `cv_.wait` -/
  | asleep
  /-- woken, re-acquiring `mut_` inside `cv_.wait` -/
  | woken
  /-- 1166 / 1171 `lock.unlock()` -/
  | unlock
  /-- 1173 -/
  | exch
  /-- 1143, 801: the worker has returned from `run` -/
  | exited
  deriving DecidableEq

/-- What another thread is about to do. -/
inductive NPc
  | idle
  /-- 1181 `state_.exchange(notified)` -/
  | exch
  /-- 1183-1185 lock and unlock `mut_` -/
  | lk
  /-- 1186 `cv_.notify_one()` -/
  | cvn
  /-- 1194-1197 `request_stop`: set the flag under the lock -/
  | stopLk
  /-- 1198 -/
  | stopCv
  deriving DecidableEq

structure St where
  /-- the list of remote queues, newest first -/
  regs : List Nat
  /-- the queue for this worker in each remote queue object, newest task first -/
  remote : Nat → List Task
  pending : List Task
  loc : List Task
  /-- the owner's last operation on the local queue was an accepted push -/
  top : Bool
  state : State
  /-- the worker holds `mut_` -/
  lockW : Bool
  stop : Bool
  wpc : WPc
  npc : Nat → NPc
  /-- ghost: tasks handed to this worker; executed by it; taken from its local queue by thieves -/
  subm : List Task
  done : List Task
  stolen : List Task

/-- 151-165, 600-612: initially only the pool's own remote queue (number 0) exists. -/
def init : St :=
  { regs := [0], remote := fun _ => [], pending := [], loc := [], top := false, state := .running
    lockW := false, stop := false, wpc := .popL, npc := fun _ => .idle
    subm := [], done := [], stolen := [] }

inductive Act
  /-- 194-216 some thread registers a new remote queue -/
  | reg (q : Nat)
  /-- 908-912, 920-923 `enqueue`: `push_front`, then notify if the queue was empty -/
  | push (t q : Nat) (x : Task)
  /-- 974-975 `bulk_enqueue`: `prepend`, then notify -/
  | prepend (t q : Nat) (xs : List Task)
  /-- 1093-1108 `notify_one_sleeping` by some other worker -/
  | poke (t : Nat)
  /-- 1192 `request_stop` -/
  | stop (t : Nat)
  /-- next step of a thread in `notify` or `request_stop` -/
  | n (t : Nat)
  /-- a thief takes a task from the local queue: the one after the first `i` -/
  | steal (i : Nat)
  /-- the task being executed schedules another one on this worker: 1051-1057 -/
  | pushLocal (x : Task) (accepted : Bool)
  /-- the task being executed schedules several: 1059-1063 -/
  | pushLocalBulk (xs : List Task)
  /-- the task being executed returns: 803, 798 -/
  | finish
  /-- the worker's next step -/
  | w
  /-- the worker's next step in `move_pending_to_local`: `k` tasks fit -/
  | wAcc (k : Nat)
  /-- the worker steals task `x` from another worker -/
  | wTake (x : Task)
  /-- `compare_exchange_weak` fails spuriously -/
  | wFail
  /-- spurious wake-up -/
  | wake
  deriving DecidableEq

/-- Where the worker goes when `try_remote` found nothing. -/
def afterNone : Mode → WPc
  | .spec => .stealing
  | .before => .wait

/-- The worker starts executing `x`. -/
def St.run (s : St) (x : Task) : St := { s with wpc := .exec, done := s.done ++ [x] }

/-- The worker's step. -/
def wStep (s : St) : Option St :=
  match s.wpc with
  | .exec | .asleep | .exited | .app _ _ => none
  -- 1007-1013
  | .popL => match s.loc.getLast? with
    | some x => some { s.run x with loc := s.loc.dropLast, top := false }
    | none => some { s with top := false, wpc := .ldList .spec }
  | .ldList m => some { s with wpc := .scan m s.regs [] }
  -- 182-191
  | .scan m [] acc => some { s with wpc := .app m acc }
  | .scan .before (q :: l) acc =>
      some { s with remote := upd s.remote q [], wpc := .scan .before l (acc ++ (s.remote q).reverse) }
  | .scan .spec (q :: l) acc =>
      if s.remote q = [] then some { s with wpc := .scan .spec l acc }
      else some { s with wpc := .deq (q :: l) acc }
  | .deq [] acc => some { s with wpc := .app .spec acc }
  | .deq (q :: l) acc =>
      some { s with remote := upd s.remote q [], wpc := .scan .spec l (acc ++ (s.remote q).reverse) }
  -- 998
  | .popR m => match s.loc.getLast? with
    | some x => match m with
      | .spec => some { s.run x with loc := s.loc.dropLast, top := false }
      | .before => some { s with loc := s.loc.dropLast, top := false, wpc := .casR, done := s.done ++ [x] }
    | none => some { s with top := false, wpc := afterNone m }
  -- 1117-1138: no victim had a task
  | .stealing => some { s with wpc := .lock }
  | .lock => if s.lockW then none else some { s with lockW := true, wpc := .chkStop }
  -- 1141-1144; the destructor of `lock` releases `mut_`
  | .chkStop =>
      if s.stop then some { s with lockW := false, wpc := .exited } else some { s with wpc := .casS }
  -- 1145-1149
  | .casS =>
      if s.state = .running then some { s with state := .sleeping, wpc := .ldList .before }
      else some { s with wpc := .unlock }
  -- 1158-1163; the destructor of `lock` releases `mut_`
  | .casR => some { s with state := if s.state = .sleeping then .running else s.state
                           lockW := false, wpc := .exec }
  -- 1165: release `mut_` and block, atomically
  | .wait => some { s with lockW := false, wpc := .asleep }
  | .woken => if s.lockW then none else some { s with lockW := true, wpc := .unlock }
  | .unlock => some { s with lockW := false, wpc := .exch }
  -- 1173-1174
  | .exch => some { s with state := .running, wpc := .popL }

/-- A step of a thread in `notify` (1179-1190) or `request_stop` (1192-1199). -/
def nStep (s : St) (t : Nat) : Option St :=
  match s.npc t with
  | .idle => none
  | .exch => some { s with state := .notified
                           npc := upd s.npc t (if s.state = .sleeping then .lk else .idle) }
  | .lk => if s.lockW then none else some { s with npc := upd s.npc t .cvn }
  | .cvn => some { s with npc := upd s.npc t .idle
                          wpc := if s.wpc = .asleep then .woken else s.wpc }
  | .stopLk => if s.lockW then none else some { s with stop := true, npc := upd s.npc t .stopCv }
  | .stopCv => some { s with npc := upd s.npc t .idle
                             wpc := if s.wpc = .asleep then .woken else s.wpc }

def step (s : St) : Act → Option St
  | .reg q => if q ∈ s.regs then none else some { s with regs := q :: s.regs }
  | .push t q x =>
      if s.npc t = .idle ∧ q ∈ s.regs then
        some { s with remote := upd s.remote q (x :: s.remote q)
                      npc := upd s.npc t (if s.remote q = [] then .exch else .idle)
                      subm := s.subm ++ [x] }
      else none
  | .prepend t q xs =>
      if s.npc t = .idle ∧ q ∈ s.regs then
        some { s with remote := upd s.remote q (xs ++ s.remote q)
                      npc := upd s.npc t .exch
                      subm := s.subm ++ xs }
      else none
  | .poke t => if s.npc t = .idle then some { s with npc := upd s.npc t .exch } else none
  | .stop t => if s.npc t = .idle then some { s with npc := upd s.npc t .stopLk } else none
  | .n t => nStep s t
  | .steal i =>
      match s.loc[i]? with
      | some x => if i + 1 < s.loc.length ∨ s.top = false then
          some { s with loc := s.loc.eraseIdx i, stolen := s.stolen ++ [x] }
        else none
      | none => none
  | .pushLocal x acc =>
      if s.wpc = .exec then
        if acc then some { s with loc := s.loc ++ [x], top := true, subm := s.subm ++ [x] }
        else if s.loc = [] then none
        else some { s with pending := s.pending ++ [x], subm := s.subm ++ [x] }
      else none
  | .pushLocalBulk xs =>
      if s.wpc = .exec then some { s with pending := xs ++ s.pending, subm := s.subm ++ xs } else none
  | .finish => if s.wpc = .exec then some { s with wpc := .popL } else none
  | .w => wStep s
  -- 994-997, 980-987
  | .wAcc k => match s.wpc with
    | .app m acc =>
        if s.pending ++ acc = [] then
          if k = 0 then some { s with wpc := afterNone m } else none
        else if k ≤ (s.pending ++ acc).length ∧ (s.loc = [] → 1 ≤ k) then
          some { s with loc := s.loc ++ (s.pending ++ acc).take k
                        pending := (s.pending ++ acc).drop k
                        top := if 1 ≤ k then true else s.top
                        wpc := .popR m }
        else none
    | _ => none
  | .wTake x => if s.wpc = .stealing then
      some { s.run x with subm := s.subm ++ [x] } else none
  | .wFail => if s.wpc = .casS then some { s with wpc := .unlock } else none
  | .wake => if s.wpc = .asleep then some { s with wpc := .woken } else none

end Verif.PoolSleep
