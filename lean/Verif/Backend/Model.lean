import Verif.Common
/-!
# The replaceable backend of `parallel_scheduler`

`stdexec/__detail/__parallel_scheduler_default_impl.hpp:330-398`: `__instance_data`, behind `get_parallel_scheduler()` and
`set_parallel_scheduler_backend` (`__parallel_scheduler_default_impl_entry.hpp`). Any number of threads; every access to a
shared object is one step. Instances and factories are numbers; a factory makes a new instance at every call or throws. The lifetime of the
instances is `std::shared_ptr`'s business and not represented.
-/
namespace Verif.Backend

/-- Where a thread is. -/
inductive PC
  | idle
  -- `__get_current_instance` (`:338-359`)
  | g1                       -- about to acquire the lock (`:341`)
  | g2                       -- about to copy `__instance_` (`:342`)
  | g3 (v : Option Nat)      -- about to release the lock; then test the copy (`:343-347`)
  | g4                       -- about to load the factory (`:351`)
  | g5 (f : Nat)             -- about to call it (`:351`)
  | g6 (v : Nat)             -- about to acquire the lock (`:354`)
  | g7 (v : Nat)             -- about to store the instance (`:355`)
  | g8 (v : Nat)             -- about to release the lock and return (`:356-357`)
  -- `__set_backend_factory` (`:361-376`)
  | s1 (f : Nat)             -- about to exchange the factory (`:366`)
  | s2 (f o : Nat)           -- about to call the new factory (`:368`)
  | s3 (v o : Nat)           -- about to acquire the lock (`:370`)
  | s4 (v o : Nat)           -- about to exchange the instance (`:371`)
  | s5 (o : Nat)             -- about to release the lock, drop the old instance and return (`:372-375`)
  deriving DecidableEq, Repr

/-- `__instance_data` (`:378-380`) and the threads. -/
structure St where
  lock : Bool := false                  -- `__instance_locked_`
  inst : Option Nat := none             -- `__instance_`
  fac : Nat := 0                        -- `__factory_`; 0 is the default factory
  pc : Nat → PC := fun _ => .idle
  next : Nat := 0                       -- instances made so far
  made : Nat → Nat := fun _ => 0        -- ghost: the factory that made an instance
  got : List Nat := []                  -- ghost: results of the completed `__get_current_instance` calls, last first
  sets : List (Nat × Nat) := []         -- ghost: exchanges of the factory (new, old), last first
  rets : List Nat := []                 -- ghost: results of the completed `__set_backend_factory` calls, last first

inductive Act
  | get (t : Nat)            -- `t` calls `__get_current_instance`
  | set (t f : Nat)          -- `t` calls `__set_backend_factory(f)`
  | go (t : Nat)             -- `t` makes its next step
  | throw (t : Nat)          -- the factory called by `t` throws
  deriving DecidableEq, Repr

/-- One step. The spin loop of `__acquire_instance_lock` (`:388-394`) is a step that is possible when the lock is free. -/
def step (s : St) : Act → Option St
  | .get t => if s.pc t = .idle then some { s with pc := upd s.pc t .g1 } else none
  | .set t f => if s.pc t = .idle then some { s with pc := upd s.pc t (.s1 f) } else none
  | .throw t =>
    match s.pc t with
    | .g5 _ => some { s with pc := upd s.pc t .idle }
    | .s2 _ _ => some { s with pc := upd s.pc t .idle }
    | _ => none
  | .go t =>
    match s.pc t with
    | .idle => none
    | .g1 => if s.lock then none else some { s with lock := true, pc := upd s.pc t .g2 }
    | .g2 => some { s with pc := upd s.pc t (.g3 s.inst) }
    | .g3 (some v) => some { s with lock := false, pc := upd s.pc t .idle, got := v :: s.got }
    | .g3 none => some { s with lock := false, pc := upd s.pc t .g4 }
    | .g4 => some { s with pc := upd s.pc t (.g5 s.fac) }
    | .g5 f => some { s with pc := upd s.pc t (.g6 s.next), next := s.next + 1, made := upd s.made s.next f }
    | .g6 v => if s.lock then none else some { s with lock := true, pc := upd s.pc t (.g7 v) }
    | .g7 v => some { s with inst := some v, pc := upd s.pc t (.g8 v) }
    | .g8 v => some { s with lock := false, pc := upd s.pc t .idle, got := v :: s.got }
    | .s1 f => some { s with fac := f, pc := upd s.pc t (.s2 f s.fac), sets := (f, s.fac) :: s.sets }
    | .s2 f o => some { s with pc := upd s.pc t (.s3 s.next o), next := s.next + 1, made := upd s.made s.next f }
    | .s3 v o => if s.lock then none else some { s with lock := true, pc := upd s.pc t (.s4 v o) }
    | .s4 v o => some { s with inst := some v, pc := upd s.pc t (.s5 o) }
    | .s5 o => some { s with lock := false, pc := upd s.pc t .idle, rets := o :: s.rets }

def init : St := {}

end Verif.Backend
