import Verif.PoolSleep.Model
import Verif.ListSum
/-! # A pool worker's sleep — invariant -/
namespace Verif.PoolSleep

/-- The worker is in a place where it holds `mut_`. -/
def WPc.locked : WPc → Bool
  | .chkStop | .casS | .ldList .before | .scan .before _ _ | .app .before _ | .popR .before | .casR
  | .wait | .unlock => true
  | _ => false

/-- Between the announcement of the sleep and the wake-up. -/
def WPc.dz : WPc → Bool
  | .ldList .before | .scan .before _ _ | .app .before _ | .popR .before | .wait | .asleep => true
  | _ => false

/-- The queues that will still be looked at before sleeping. -/
def WPc.left : WPc → List Nat
  | .scan .before l _ => l
  | _ => []

/-- Past loading the list of remote queues, on the way to sleep. -/
def WPc.late : WPc → Bool
  | .scan .before _ _ | .app .before _ | .popR .before | .wait | .asleep => true
  | _ => false

/-- Places where the stop flag is known to be clear. -/
def WPc.nostop : WPc → Bool
  | .casS | .ldList .before | .scan .before _ _ | .app .before _ | .popR .before | .wait => true
  | _ => false

/-- Places where the local queue is empty. -/
def WPc.noLoc : WPc → Bool
  | .ldList _ | .scan _ _ _ | .deq _ _ | .app _ _ | .stealing | .lock | .chkStop | .casS | .wait
  | .asleep => true
  | _ => false

/-- Places where the list of pending tasks is empty. -/
def WPc.noPend : WPc → Bool
  | .ldList .before | .scan .before _ _ | .app .before _ | .stealing | .lock | .chkStop | .casS | .wait
  | .asleep => true
  | _ => false

/-- The tasks the worker has in hand. -/
def WPc.acc : WPc → List Task
  | .scan _ _ a | .deq _ a | .app _ a => a
  | _ => []

structure Inv (s : St) : Prop where
  nodup : s.regs.Nodup
  reg : ∀ q, s.remote q ≠ [] → q ∈ s.regs
  lck : s.lockW = s.wpc.locked
  run : s.wpc.dz = true → s.state ≠ .running
  ntf : s.wpc.dz = true → s.state = .notified →
    ∃ t, s.npc t = .lk ∨ (s.wpc = .asleep ∧ s.npc t = .cvn)
  wrk : s.wpc.late = true → ∀ q, s.remote q ≠ [] →
    q ∈ s.wpc.left ∨ s.state = .notified ∨ ∃ t, s.npc t = .exch
  stp : s.wpc.nostop = true → s.stop = false
  stq : s.wpc = .asleep → s.stop = true → ∃ t, s.npc t = .stopCv
  lem : s.wpc.noLoc = true → s.loc = []
  pem : s.wpc.noPend = true → s.pending = []
  pop : ∀ m, s.wpc = .popR m → s.top = true
  tp : s.top = true → s.loc ≠ []

theorem inv_init : Inv init := by
  constructor <;> simp [init, WPc.dz, WPc.late, WPc.nostop, WPc.noLoc, WPc.noPend, WPc.locked]

end Verif.PoolSleep
