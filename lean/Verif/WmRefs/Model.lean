import Verif.WM.Machine
/-!
# Counting references under the C++ memory model — model (C93)

The pattern "the last one out destroys" on the machine of `Verif.WM.Machine`: owners use an object, hand out further references
(an increment with order `ordI`) and drop theirs (a decrement with order `ordD`); who decrements 1 to 0 destroys the object. It is
the protocol of
`/repo/include/stdexec/__detail/__intrusive_ptr.hpp` 131-150 (`ordI` relaxed, `ordD` acq_rel),
`/repo/include/exec/when_any.hpp` 92, 154 (relaxed, acq_rel: the children and the stop callback own the operation),
`/repo/include/exec/async_scope.hpp` 166, 239 (relaxed, acq_rel: the operations own the scope),
`/repo/include/exec/static_thread_pool.hpp` 1669-1683 (`countdown_`: no increments, **relaxed**: the elements of `schedule_all`
own the operation),
`/repo/include/exec/timed_thread_scheduler.hpp` 280-351 (`ref_count_`: relaxed, **relaxed**: the timer and the stop operation own
the operation; on different threads when the context is closed) and 195-238 (`n_submissions_in_flight_`: relaxed, **relaxed**:
the submissions own the context).
Handing a reference over to another thread is assumed to synchronise (as queues, locks and thread creation do).
-/
namespace Verif.WmRefs

open Verif.WM

/-- The one atomic object: the count. -/
inductive Loc
  | count
  deriving DecidableEq, Repr

/-- A use of the object (also of the count), or its destruction. -/
structure Acc where
  who : Nat
  free : Bool
  deriving DecidableEq, Repr

/-- Uses may be concurrent, the destruction conflicts with everything. -/
def conf (a b : Acc) : Bool := a.free || b.free

structure Cfg where
  /-- owners at the beginning: 0, …, n-1 -/
  n : Nat
  ordI : Ord
  ordD : Ord

inductive PC
  | none
  | live
  | gone
  | last
  | fin
  deriving DecidableEq, Repr

structure St where
  m : Mem Loc Acc
  pc : Nat → PC
  live : List Nat
  /-- ghost: newest message of the count -/
  kc : Nat

def init (c : Cfg) : St :=
  { m := .init fun _ => c.n, pc := fun t => if t < c.n then .live else .none, live := List.range c.n, kc := 0 }

inductive Act
  /-- owner `t` uses the object -/
  | use (t : Nat)
  /-- owner `t` makes `u` an owner -/
  | clone (t u ts : Nat)
  /-- owner `t` drops its reference -/
  | drop (t ts : Nat)
  /-- the last owner destroys the object -/
  | destroy (t : Nat)
  deriving DecidableEq, Repr

/-- One step. -/
def step (c : Cfg) (s : St) : Act → Option St
  | .use t => if s.pc t = .live then some { s with m := s.m.touch conf t ⟨t, false⟩ } else none
  | .clone t u ts =>
    if s.pc t = .live ∧ s.pc u = .none then
      (s.m.rmw conf c.ordI t .count ts (fun v => v + 1) ⟨t, false⟩).map fun r =>
        { s with m := r.2.adopt u (r.2.cur t), pc := upd s.pc u .live, live := s.live ++ [u], kc := ts + 1 }
    else none
  | .drop t ts =>
    if s.pc t = .live then
      (s.m.rmw conf c.ordD t .count ts (fun v => v - 1) ⟨t, false⟩).map fun r =>
        { s with m := r.2, pc := upd s.pc t (if r.1 = 1 then .last else .gone), live := s.live.erase t, kc := ts + 1 }
    else none
  | .destroy t => if s.pc t = .last then some { s with m := s.m.touch conf t ⟨t, true⟩, pc := upd s.pc t .fin } else none

abbrev Reachable (c : Cfg) (s : St) : Prop := Reach (init c) (step c) s

end Verif.WmRefs
