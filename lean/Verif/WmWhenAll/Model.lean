import Verif.WM.Machine
/-!
# `when_all` under the C++ memory model — model (C92)

Models `/repo/include/stdexec/__detail/__when_all.hpp` 562-645 and 800-885 on the machine of `Verif.WM.Machine`: the children's
completions, each on a thread of its own, and a stop request that arrives while children are running. Every atomic access
(`__state_`, `__count_`) and every access to `__values_` and `__errors_` is a step; a load may read an old message.
The memory orders are parameters: `ordS`/`ordF` of the read-modify-writes of `__state_` (the code uses the default,
`seq_cst`, and asks "What memory orderings are actually needed here?", `:805`), `ordC` of the decrement of `__count_` (`:606`,
`acq_rel`), `ordI` of its increment (`:569`, `relaxed`), `ordL` of the final load (`:620`, `relaxed`).
Simplifications: the stop source's own accesses are left out (C01-C04); the stop callback begins only while a child has yet to
arrive (otherwise C16's double completion happens under any memory model); constructing a value does not throw.
-/
namespace Verif.WmWhenAll

open Verif.WM

/-- The atomic objects. -/
inductive Loc
  | count
  | state
  deriving DecidableEq, Repr

/-- What is accessed. -/
inductive Obj
  | value (i : Nat)
  | errors
  | atom
  | op
  deriving DecidableEq, Repr

inductive How
  | read
  | write
  | free
  deriving DecidableEq, Repr

structure Acc where
  who : Nat
  obj : Obj
  how : How
  deriving DecidableEq, Repr

/-- Accesses that must not be concurrent: to the same object, one of them writing, or anything with the destruction of the
operation state. -/
def conf (a b : Acc) : Bool :=
  a.how = .free || b.how = .free || (a.obj = b.obj && (a.how = .write || b.how = .write))

/-- How a child completes. -/
inductive Kind
  | value (v : Nat)
  | error (e : Nat)
  | stopped
  deriving DecidableEq, Repr

structure Cfg where
  n : Nat
  kind : Nat → Kind
  ordS : Ord
  ordF : Ord
  ordC : Ord
  ordI : Ord
  ordL : Ord

inductive Out
  | values (l : List (Option Nat))
  | error (e : Option Nat)
  | stopped
  deriving DecidableEq, Repr

inductive PC
  | run          -- `:838` not yet completed; for the stop callback: not yet called
  | save         -- `:822` won the race to report its error
  | cas          -- `:575` the stop callback has incremented the count
  | arrive       -- `:606`
  | gone
  | load         -- `:620` the last to arrive
  | values (i : Nat)   -- reading `__values_`
  | error        -- reading `__errors_`
  | free         -- the receiver was completed and destroys the operation state
  | fin
  deriving DecidableEq, Repr

structure St where
  m : Mem Loc Acc
  pc : Nat → PC
  vals : Nat → Option Nat
  err : Option Nat
  out : List Out
  /-- ghost: newest messages of the count and of the state -/
  kc : Nat
  ks : Nat
  /-- ghost: who wrote the newest message of the state, whose error was saved, who set the state to stopped -/
  sw : Nat
  win : Option Nat
  stp : Option Nat

/-- `:741` the state before the children are started; 0 is started, 1 error, 2 stopped. -/
def init (c : Cfg) : St :=
  { m := .init fun l => match l with
      | .count => c.n
      | .state => 0
    pc := fun _ => .run, vals := fun _ => none, err := none, out := [], kc := 0, ks := 0, sw := 0, win := none, stp := none }

/-- An access to an atomic object. -/
def atom (t : Nat) : Acc := ⟨t, .atom, .read⟩

/-- `compare_exchange_strong(started, stopped)` (`:575`, `:854`). -/
def cas (c : Cfg) (s : St) (t ts : Nat) : Option St :=
  match s.m.hist .state ts with
  | some g =>
    if g.val = 0 then
      (s.m.rmw conf c.ordS t .state ts (fun _ => 2) (atom t)).map fun r =>
        { s with m := r.2, pc := upd s.pc t .arrive, ks := ts + 1, sw := t, stp := some t }
    else
      (s.m.load conf c.ordF t .state ts (atom t)).map fun r => { s with m := r.2, pc := upd s.pc t .arrive }
  | none => none

/-- `__arrive` (`:604`). -/
def arrive (c : Cfg) (s : St) (t ts : Nat) : Option St :=
  (s.m.rmw conf c.ordC t .count ts (fun v => v - 1) (atom t)).map fun r =>
    { s with m := r.2, pc := upd s.pc t (if r.1 = 1 then .load else .gone), kc := ts + 1 }

/-- `__complete` (`:838`) up to `__arrive`. -/
def complete (c : Cfg) (s : St) (t ts : Nat) : Option St :=
  match c.kind t with
  | .value v =>
    some { s with m := s.m.touch conf t ⟨t, .value t, .write⟩, vals := upd s.vals t (some v), pc := upd s.pc t .arrive }
  | .error _ =>
    (s.m.rmw conf c.ordS t .state ts (fun _ => 1) (atom t)).map fun r =>
      { s with
        m := r.2, ks := ts + 1, sw := t, pc := upd s.pc t (if r.1 = 1 then .arrive else .save)
        win := if r.1 = 1 then s.win else some t }
  | .stopped => cas c s t ts

/-- The error a child completes with. -/
def errOf : Kind → Option Nat
  | .error e => some e
  | _ => none

/-- A step of thread `t`; `ts` is the message it reads if it accesses an atomic object. Thread `n` is the stop callback. -/
def step (c : Cfg) (s : St) (a : Nat × Nat) : Option St :=
  let t := a.1
  let ts := a.2
  match s.pc t with
  | .run =>
    if t < c.n then complete c s t ts
    else if t = c.n then
      match s.m.hist .count ts with
      | some g =>
        if 1 ≤ g.val then
          (s.m.rmw conf c.ordI t .count ts (fun v => v + 1) (atom t)).map fun r =>
            { s with m := r.2, pc := upd s.pc t .cas, kc := ts + 1 }
        else none
      | none => none
    else none
  | .save =>
    some { s with m := s.m.touch conf t ⟨t, .errors, .write⟩, err := errOf (c.kind t), pc := upd s.pc t .arrive }
  | .cas => cas c s t ts
  | .arrive => arrive c s t ts
  | .gone => none
  | .load =>
    (s.m.load conf c.ordL t .state ts (atom t)).map fun r =>
      { s with m := r.2, pc := upd s.pc t (if r.1 = 1 then .error else if r.1 = 0 then .values 0 else .free)
               out := if r.1 = 1 ∨ r.1 = 0 then s.out else s.out ++ [.stopped] }
  | .values i =>
    if i < c.n then some { s with m := s.m.touch conf t ⟨t, .value i, .read⟩, pc := upd s.pc t (.values (i + 1)) }
    else some { s with pc := upd s.pc t .free, out := s.out ++ [.values ((List.range c.n).map s.vals)] }
  | .error =>
    some { s with m := s.m.touch conf t ⟨t, .errors, .read⟩, pc := upd s.pc t .free, out := s.out ++ [.error s.err] }
  | .free => some { s with m := s.m.touch conf t ⟨t, .op, .free⟩, pc := upd s.pc t .fin }
  | .fin => none

abbrev Reachable (c : Cfg) (s : St) : Prop := Reach (init c) (step c) s

end Verif.WmWhenAll
