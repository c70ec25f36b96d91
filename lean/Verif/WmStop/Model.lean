import Verif.WM.Machine
/-!
# Stop callbacks under the C++ memory model — model (C94)

`/repo/include/stdexec/stop_token.hpp` 260-440 (`inplace_stop_source`, `inplace_stop_callback`) on the machine of
`Verif.WM.Machine`. Thread 0 calls `request_stop`; thread `i ≥ 1` owns callback `i`: it constructs it (which registers it, or
executes it inline if stop was requested) and destroys it (which deregisters it, waiting for an execution by thread 0). A callback
with `self` is destroyed by its own function instead, while `request_stop` executes it. A thread may instead look at
`stop_requested()`, and read what thread 0 wrote before it requested stop if the answer is yes.

Simplifications: one thread requests stop (others get `false` and touch nothing); an access to the list counts as an access to the
links of every callback in the list (the code accesses those of at most three); the two plain members a callback has beside its
links (the function, `__removed_during_callback_`) are one object.
-/
namespace Verif.WmStop

open Verif.WM

/-- The atomic objects: `__state_` (bit 0 `__stop_requested_flag_`, bit 1 `__locked_flag_`; stop_token.hpp 143-147) and
`__callback_completed_` of callback `i` (stop_token.hpp 63). -/
inductive Loc
  | state
  | done (i : Nat)
  deriving DecidableEq, Repr

/-- What is accessed. -/
inductive What
  /-- callback `i` is constructed (all its members are written) -/
  | make (i : Nat)
  /-- `__callbacks_`, `__notifying_thread_` and the links of the callbacks `l` are read or written -/
  | crit (l : List Nat)
  /-- the function of callback `i` is called -/
  | run (i : Nat)
  /-- `__callback_completed_` of callback `i` is read or written (atomically) -/
  | flag (i : Nat)
  /-- callback `i` is destroyed -/
  | free (i : Nat)
  /-- thread 0 writes the user's data -/
  | uw
  /-- the user's data are read -/
  | ur
  /-- atomic access to `__state_` -/
  | atom
  deriving DecidableEq, Repr

structure Acc where
  who : Nat
  what : What
  deriving DecidableEq, Repr

/-- The access is to callback `i`. -/
def What.on (i : Nat) : What → Bool
  | .make j => j == i
  | .crit l => l.contains i
  | .run j => j == i
  | .flag j => j == i
  | .free j => j == i
  | _ => false

/-- The access begins or ends the life of callback `i`. -/
def What.life (i : Nat) : What → Bool
  | .make j => j == i
  | .free j => j == i
  | _ => false

/-- Conflicting accesses ([intro.races]; construction and destruction conflict with every other access to the callback). -/
def conf (a b : Acc) : Bool :=
  match a.what, b.what with
  | .make i, w => w.on i
  | .free i, w => w.on i
  | .run i, .run j => i == j
  | .run i, w => w.life i
  | .flag i, w => w.life i
  | .crit _, .crit _ => true
  | .crit l, .make i => l.contains i
  | .crit l, .free i => l.contains i
  | .uw, .uw => true
  | .uw, .ur => true
  | .ur, .uw => true
  | _, _ => false

/-- The memory orders, and what the callbacks do. -/
structure Cfg where
  /-- CAS in `__try_lock_unless_stop_requested_` (:345: acq_rel) -/
  ordT : Ord
  /-- CAS in `__lock_` (:309: acquire) -/
  ordK : Ord
  /-- stores that unlock (:276, :296, :318: release) -/
  ordU : Ord
  /-- store of `__callback_completed_` (:287: release) -/
  ordD : Ord
  /-- load of `__callback_completed_` (:413: acquire) -/
  ordW : Ord
  /-- the load in `__try_lock_unless_stop_requested_` that finds stop requested (:325, :341: **relaxed**) -/
  ordP : Ord
  /-- the load in `stop_requested` (:137: acquire) -/
  ordO : Ord
  /-- the function of callback `i` destroys it when called by `request_stop` -/
  self : Nat → Bool
  /-- the function of callback `i` reads what thread 0 wrote before it requested stop -/
  reads : Nat → Bool

/-- Owners of callbacks. -/
inductive PC
  | idle
  /-- constructed, to be registered -/
  | reg
  /-- locked to register -/
  | crit
  | unl0
  /-- constructor has returned -/
  | regd
  /-- locked to deregister; `__old_state` -/
  | critR (old : Nat)
  /-- deregistered, to unlock -/
  | unlF (old : Nat)
  /-- not found in the list, to unlock -/
  | unlW (old : Nat)
  /-- waits for `__callback_completed_` -/
  | wait
  /-- to execute inline -/
  | inl
  | inl2
  /-- to destroy -/
  | fr
  /-- has seen `stop_requested()` -/
  | saw
  | fin
  deriving DecidableEq, Repr

/-- `request_stop`. -/
inductive RPC
  | idle
  | req
  | note
  | loop
  | rel (i : Nat)
  | call (i : Nat)
  | dn (i : Nat)
  | sl (i : Nat)
  | sc (i : Nat)
  | su (i : Nat)
  | sf (i : Nat)
  | relock
  | relF
  | fin
  deriving DecidableEq, Repr

structure St where
  m : Mem Loc Acc
  pc : Nat → PC
  r : RPC
  /-- `__callbacks_` -/
  list : List Nat
  /-- ghost: newest message of `__state_` -/
  ks : Nat
  /-- ghost: who holds the lock -/
  holder : Option Nat

def init : St :=
  { m := .init fun _ => 0, pc := fun _ => .idle, r := .idle, list := [], ks := 0, holder := none }

/-- What can happen; `ts` is the message read or written. -/
inductive Act
  /-- thread `t` goes on (thread 0: `request_stop`) -/
  | go (t ts : Nat)
  /-- thread `t` reads `__state_`: `stop_requested()` if idle, else in a loop around a CAS -/
  | peek (t ts : Nat)
  deriving DecidableEq, Repr

/-- Setting `__locked_flag_` in a CAS that expects it clear: `f` gives the new value; the continuation gets the old one. -/
def lock (s : St) (o : Ord) (t ts : Nat) (ok : Nat → Bool) (f : Nat → Nat) (k : Nat → St → St) : Option St :=
  (s.m.rmw conf o t .state ts f ⟨t, .atom⟩).bind fun r =>
    if ok r.1 then some (k r.1 { s with m := r.2, ks := ts + 1, holder := some t }) else none

/-- Unlocking with a store of `v`. -/
def unlock (s : St) (o : Ord) (t ts v : Nat) (k : St → St) : Option St :=
  (s.m.store conf o t .state ts v ⟨t, .atom⟩).map fun m => k { s with m := m, ks := ts, holder := none }

/-- Plain access. -/
def acc (s : St) (t : Nat) (w : What) : St := { s with m := s.m.touch conf t ⟨t, w⟩ }

/-- `request_stop` (stop_token.hpp 260-297); `sl`…`sf`: `~inplace_stop_callback` called by the callback's function
(:240-244, :379-410). -/
def stepR (c : Cfg) (s : St) (ts : Nat) : Option St :=
  match s.r with
  | .idle => some { acc s 0 .uw with r := .req }
  | .req => lock s c.ordT 0 ts (fun v => v == 0) (fun v => v + 3) fun _ s => { s with r := .note }
  | .note => some { acc s 0 (.crit []) with r := .loop }
  | .loop =>
    match s.list with
    | [] => some { acc s 0 (.crit []) with r := .relF }
    | i :: l => some { acc s 0 (.crit (i :: l)) with r := .rel i, list := l }
  | .rel i => unlock s c.ordU 0 ts 1 fun s => { s with r := .call i }
  | .call i => some { acc s 0 (.run i) with r := if c.self i then .sl i else .dn i }
  | .dn i => (s.m.store conf c.ordD 0 (.done i) ts 1 ⟨0, .flag i⟩).map fun m => { s with m := m, r := .relock }
  | .sl i => lock s c.ordK 0 ts (fun v => v < 2) (fun v => v + 2) fun _ s => { s with r := .sc i }
  | .sc i => some { acc s 0 (.crit (i :: s.list)) with r := .su i }
  | .su i => unlock s c.ordU 0 ts 1 fun s => { s with r := .sf i }
  | .sf i => some { acc s 0 (.free i) with r := .relock }
  | .relock => lock s c.ordK 0 ts (fun v => v < 2) (fun v => v + 2) fun _ s => { s with r := .loop }
  | .relF => unlock s c.ordU 0 ts 1 fun s => { s with r := .fin }
  | .fin => none

/-- Owner `i`: constructor (stop_token.hpp 230-238, 350-376, 452-466), destructor (:240-244, :378-425). -/
def stepO (c : Cfg) (s : St) (i ts : Nat) : Option St :=
  match s.pc i with
  | .idle => some { acc s i (.make i) with pc := upd s.pc i .reg }
  | .reg => lock s c.ordT i ts (fun v => v == 0) (fun v => v + 2) fun _ s => { s with pc := upd s.pc i .crit }
  | .crit => some { acc s i (.crit (i :: s.list)) with pc := upd s.pc i .unl0, list := i :: s.list }
  | .unl0 => unlock s c.ordU i ts 0 fun s => { s with pc := upd s.pc i .regd }
  | .regd =>
    if c.self i then none
    else lock s c.ordK i ts (fun v => v < 2) (fun v => v + 2) fun old s => { s with pc := upd s.pc i (.critR old) }
  | .critR old =>
    some { acc s i (.crit (i :: s.list)) with
           pc := upd s.pc i (if i ∈ s.list then .unlF old else .unlW old), list := s.list.erase i }
  | .unlF old => unlock s c.ordU i ts old fun s => { s with pc := upd s.pc i .fr }
  | .unlW old => unlock s c.ordU i ts old fun s => { s with pc := upd s.pc i .wait }
  | .wait =>
    (s.m.load conf c.ordW i (.done i) ts ⟨i, .flag i⟩).map fun r =>
      { s with m := r.2, pc := upd s.pc i (if r.1 = 0 then .wait else .fr) }
  | .inl => some { acc s i (.run i) with pc := upd s.pc i (if c.reads i then .inl2 else .fr) }
  | .inl2 => some { acc s i .ur with pc := upd s.pc i .fr }
  | .fr => some { acc s i (.free i) with pc := upd s.pc i .fin }
  | .saw => some { acc s i .ur with pc := upd s.pc i .fin }
  | .fin => none

/-- Loads of `__state_`: `stop_requested` (:135-138), and those of the loops of `__try_lock_unless_stop_requested_` (:325-341),
which give up when stop was requested, and of `__lock_` (:299-305), which do not. -/
def stepP (c : Cfg) (s : St) (t ts : Nat) : Option St :=
  if t = 0 then
    (s.m.load conf .rlx 0 .state ts ⟨0, .atom⟩).map fun r => { s with m := r.2 }
  else match s.pc t with
  | .idle =>
    (s.m.load conf c.ordO t .state ts ⟨t, .atom⟩).map fun r =>
      { s with m := r.2, pc := if r.1 % 2 = 1 then upd s.pc t .saw else s.pc }
  | .reg =>
    (s.m.load conf c.ordP t .state ts ⟨t, .atom⟩).map fun r =>
      { s with m := r.2, pc := if r.1 % 2 = 1 then upd s.pc t .inl else s.pc }
  | .regd => (s.m.load conf .rlx t .state ts ⟨t, .atom⟩).map fun r => { s with m := r.2 }
  | _ => none

/-- One step. -/
def step (c : Cfg) (s : St) : Act → Option St
  | .go t ts => if t = 0 then stepR c s ts else stepO c s t ts
  | .peek t ts => stepP c s t ts

abbrev Reachable (c : Cfg) (s : St) : Prop := Reach init (step c) s

/-- The orders in the code. -/
def code (self reads : Nat → Bool) : Cfg :=
  { ordT := .ar, ordK := .acq, ordU := .rel, ordD := .rel, ordW := .acq, ordP := .rlx, ordO := .acq, self := self, reads := reads }

end Verif.WmStop
