import Verif.Run
/-!
# `schedule_all` on the static thread pool — model (C91)

Models `/repo/include/exec/static_thread_pool.hpp` 1566-1783: the sequence sender that hands every element of a range to
`set_next` of its receiver, on the threads of the pool (`opstate_base` 1567, `item_opstate` 1579, `next_receiver` 1663,
`opstate` 1695). Actors: the thread that calls `start`, the threads of the pool, and threads on which senders made by
`set_next` start their items later. Every acquisition and release of `start_mutex_`, every enqueuing and every decrement of
`countdown_` is a step. The environment chooses, for each element, what the sender that `set_next` makes of the item does: start
it at once, start it later on another thread (or complete without starting it after all), complete at once without starting
it; when the items of the pool run and when the senders complete; whether connecting throws; when the operation state is
destroyed after the receiver was completed.
Simplifications: the pool's queue is a list from which any item may be taken (C38, C39); connecting one element is one step.
-/
namespace Verif.SchedAll

/-- What the sender made by `set_next` does with the item. -/
inductive Kind
  | direct
  | late
  | skip
  deriving DecidableEq, Repr

structure Cfg where
  /-- number of elements -/
  n : Nat
  /-- `chunk_size` (`:1730`), at least 1 -/
  chunk : Nat
  kind : Nat → Kind
  /-- connecting this element throws -/
  throwAt : Option Nat
  /-- the operation state is not destroyed before `start` has returned -/
  waits : Bool

/-- Where the thread in `start` is. -/
inductive PC
  | conn (k : Nat)              -- `:1738`, about to connect element k
  | fill (i0 i : Nat)           -- `:1755`, about to start item i of the chunk that begins at i0
  | lockC (i0 : Nat)            -- `:1760`
  | flushC (i0 : Nat)           -- `:1761`
  | unlockC (i0 : Nat)          -- `:1763`
  | last (i : Nat)              -- `:1767`
  | lockF                       -- `:1772`
  | flushF                      -- `:1773`
  | unlockF                     -- end of scope
  | ret                         -- returned
  deriving DecidableEq, Repr

/-- Where an item is. -/
inductive Item
  | none
  | connected
  | late                        -- to be started by another thread
  | holding                     -- that thread holds the mutex
  | listed                      -- in `tasks_`
  | handing                     -- that thread is about to call `enqueue`
  | pool
  | running                     -- delivered, its sender is not finished
  | finished
  deriving DecidableEq, Repr

/-- Who holds the mutex. -/
inductive Owner
  | free
  | starter
  | other (i : Nat)
  deriving DecidableEq, Repr

inductive Sig
  | value
  | error
  deriving DecidableEq, Repr

structure St where
  pc : PC
  item : Nat → Item
  owner : Owner
  hasStarted : Bool
  tasks : List Nat
  countdown : Nat
  out : List Sig
  gone : Bool
  /-- elements handed over, in order -/
  given : List Nat
  /-- elements whose sender completed without starting the item -/
  skipped : List Nat
  /-- elements for which `set_next` was called, in order -/
  nexts : List Nat
  /-- the operation state was used after its destruction -/
  uaf : Bool

/-- `:1571`, `:1717` — `start` is about to run: an empty range completes at once. -/
def init (c : Cfg) : St :=
  { pc := if c.n = 0 then .ret else .conn 0
    item := fun _ => .none, owner := .free, hasStarted := false, tasks := [], countdown := c.n
    out := if c.n = 0 then [.value] else [], gone := false, given := [], skipped := [], nexts := [], uaf := false }

/-- `next_receiver::set_value` / `set_stopped` (`:1669`, `:1678`). -/
def finish (s : St) (i : Nat) : St :=
  { s with
    item := upd s.item i .finished, countdown := s.countdown - 1
    out := if s.countdown = 1 then s.out ++ [.value] else s.out, uaf := s.uaf || s.gone }

/-- `item_opstate::start` by the thread in `start` (`:1591`): `has_started_` is false then; the mutex is free. -/
def push (s : St) (i : Nat) : St := { s with item := upd s.item i .listed, tasks := s.tasks ++ [i], uaf := s.uaf || s.gone }

/-- `STDEXEC::start(items_[i].__get())`; `none` while the mutex is held by somebody else. -/
def startItem (c : Cfg) (s : St) (i : Nat) : Option St :=
  match c.kind i with
  | .direct => if s.owner = .free then some (push s i) else none
  | .late => some { s with item := upd s.item i .late, uaf := s.uaf || s.gone }
  | .skip => some (finish { s with skipped := s.skipped ++ [i] } i)

/-- `bulk_enqueue` (`:1761`, `:1774`): all of `tasks_` to the pool. -/
def flush (s : St) : St :=
  { s with item := fun j => if j ∈ s.tasks then .pool else s.item j, tasks := [], uaf := s.uaf || s.gone }

/-- `:1753` the loop's condition, evaluated when `i0` is the beginning of the next chunk. -/
def nextChunk (c : Cfg) (i0 : Nat) : PC := if i0 + c.chunk < c.n then .fill i0 i0 else .last i0

/-- One step of the thread in `start` (`:1715-1775`). -/
def starter (c : Cfg) (s : St) : Option St :=
  match s.pc with
  | .conn k =>
    if k < c.n then
      if c.throwAt = some k then some { s with pc := .ret, out := s.out ++ [.error], nexts := s.nexts ++ [k] }
      else some { s with pc := .conn (k + 1), item := upd s.item k .connected, nexts := s.nexts ++ [k] }
    else some { s with pc := nextChunk c 0 }
  | .fill i0 i =>
    if i < i0 + c.chunk then (startItem c s i).map fun s' => { s' with pc := .fill i0 (i + 1) }
    else some { s with pc := .lockC i0 }
  | .lockC i0 =>
    if s.owner = .free then some { s with pc := .flushC i0, owner := .starter, uaf := s.uaf || s.gone } else none
  | .flushC i0 => some { flush s with pc := .unlockC i0 }
  | .unlockC i0 => some { s with pc := nextChunk c (i0 + c.chunk), owner := .free, uaf := s.uaf || s.gone }
  | .last i =>
    if i < c.n then (startItem c s i).map fun s' => { s' with pc := .last (i + 1) }
    else some { s with pc := .lockF }
  | .lockF =>
    if s.owner = .free then some { s with pc := .flushF, owner := .starter, uaf := s.uaf || s.gone } else none
  | .flushF => some { flush { s with hasStarted := true } with pc := .unlockF }
  | .unlockF => some { s with pc := .ret, owner := .free, uaf := s.uaf || s.gone }
  | .ret => none

inductive Act
  | starter
  /-- the thread that starts item `i` later acquires the mutex (`:1593`) -/
  | lateLock (i : Nat)
  /-- it tests `has_started_` and lists the item or releases the mutex (`:1594-1602`) -/
  | lateTest (i : Nat)
  /-- it enqueues the item (`:1603`) -/
  | lateEnq (i : Nat)
  /-- the sender completes without having started the item -/
  | lateSkip (i : Nat)
  /-- a thread of the pool runs item `i` (`:1609`) -/
  | run (i : Nat)
  /-- the sender to which the element was given completes -/
  | done (i : Nat)
  /-- the owner destroys the operation state -/
  | destroy
  deriving DecidableEq, Repr

def step (c : Cfg) (s : St) : Act → Option St
  | .starter => starter c s
  | .lateLock i =>
    if s.item i = .late ∧ s.owner = .free then
      some { s with item := upd s.item i .holding, owner := .other i, uaf := s.uaf || s.gone } else none
  | .lateTest i =>
    if s.item i = .holding then
      if s.hasStarted then some { s with item := upd s.item i .handing, owner := .free, uaf := s.uaf || s.gone }
      else some { s with item := upd s.item i .listed, tasks := s.tasks ++ [i], owner := .free, uaf := s.uaf || s.gone }
    else none
  | .lateEnq i =>
    if s.item i = .handing then some { s with item := upd s.item i .pool, uaf := s.uaf || s.gone } else none
  | .lateSkip i => if s.item i = .late then some (finish { s with skipped := s.skipped ++ [i] } i) else none
  | .run i =>
    if s.item i = .pool then
      some { s with item := upd s.item i .running, given := s.given ++ [i], uaf := s.uaf || s.gone } else none
  | .done i => if s.item i = .running then some (finish s i) else none
  | .destroy =>
    if s.out ≠ [] ∧ s.gone = false ∧ (c.waits = true → s.pc = .ret) then some { s with gone := true } else none

abbrev Reachable (c : Cfg) (s : St) : Prop := Reach (init c) (step c) s

end Verif.SchedAll
