import Verif.UringOp.Model
namespace Verif.UringOp
set_option maxHeartbeats 4000000

def mN : Mn → Nat
  | .s1 => 1
  | .s2 => 1
  | .s3 => 1
  | .ring => 1
  | _ => 0

def dN : Dr → Nat
  | .dec _ _ => 1
  | _ => 0

/-- The driving thread is completing the receiver. -/
def fN : Dr → Nat
  | .rstC _ _ => 1
  | .rstR _ _ => 1
  | .fire _ _ => 1
  | _ => 0

/-- It is in `__stop_operation::complete`, before the decrement. -/
def dS : Dr → Nat
  | .dec false _ => 1
  | _ => 0

def pN : Cb → Nat
  | .run .push _ => 1
  | _ => 0

/-- The callback has used up its invocation. -/
def sp : Cb → Nat
  | .run .push _ => 1
  | .run .wake _ => 1
  | .fin => 1
  | _ => 0

def used : Cb → Bool
  | .run _ _ => true
  | .fin => true
  | _ => false

def isWake : Cb → Bool
  | .run .wake _ => true
  | _ => false

def cleared1 : Dr → Bool
  | .rstR _ _ => true
  | .fire _ _ => true
  | _ => false

def cleared2 : Dr → Bool
  | .fire _ _ => true
  | _ => false

structure Inv (s : St) : Prop where
  op : s.closed = false
  tok : s.nops = (mN s.main + dN s.dr + s.linked + s.ringS + pN (s.cb .ctx) + pN (s.cb .rcv) : Nat)
  once : s.done + fN s.dr ≤ 1
  zero : 1 ≤ s.done + fN s.dr → s.main = .gone ∧ s.nops = 0
  all : s.main = .gone → 1 ≤ s.nops ∨ s.done + fN s.dr = 1
  dm : s.main ≠ .gone → dN s.dr = dS s.dr
  offC : cleared1 s.dr = true ∨ 1 ≤ s.done → s.cb .ctx = .off
  offR : cleared2 s.dr = true ∨ 1 ≤ s.done → s.cb .rcv = .off
  pre : s.main = .idle ∨ s.main = .queued ∨ s.main = .s1 → s.cb .ctx = .off ∧ s.cb .rcv = .off ∧ s.dr = .free
  pre2 : s.main = .s2 → s.cb .rcv = .off ∧ s.dr = .free
  pre3 : s.main = .s3 → s.dr = .free
  onC : (s.cb .ctx).onDrv = true → s.main = .s2
  onR : (s.cb .rcv).onDrv = true → s.main = .s3
  cap : s.linked + s.ringS + dS s.dr + pN (s.cb .ctx) + pN (s.cb .rcv) ≤ sp (s.cb .ctx) + sp (s.cb .rcv)
  flC : used (s.cb .ctx) = true → s.flag .ctx = true
  flR : used (s.cb .rcv) = true → s.flag .rcv = true
  psh : 1 ≤ s.linked + s.ringS + dS s.dr → 1 ≤ s.pushes
  pshW : isWake (s.cb .ctx) = true ∨ isWake (s.cb .rcv) = true → 1 ≤ s.pushes
  pshC : s.cb .ctx = .fin → 1 ≤ s.pushes ∨ pN (s.cb .rcv) = 1 ∨ s.main = .gone
  pshR : s.cb .rcv = .fin → 1 ≤ s.pushes ∨ pN (s.cb .ctx) = 1 ∨ s.main = .gone
  pfl : 1 ≤ s.pushes → s.flag .ctx = true ∨ s.flag .rcv = true
  dbl : s.dbl = true → s.flag .ctx = true ∧ s.flag .rcv = true
  uaf : s.uaf = false
  cn : ∀ m, s.dr = .dec m true ∨ s.dr = .rstC m true ∨ s.dr = .rstR m true ∨ s.dr = .fire m true →
    s.canc = true ∨ s.flag .ctx = true
  cs : ∀ c, s.dr = .dec false c ∨ s.dr = .rstC false c ∨ s.dr = .rstR false c ∨ s.dr = .fire false c → 1 ≤ s.pushes
  st : s.stopd = true → s.flag .ctx = true ∨ s.flag .rcv = true ∨ s.canc = true

attribute [grind =] mN dN fN dS pN sp used isWake cleared1 cleared2 Cb.onDrv Cb.running

theorem inv_init : Inv (init false) := by
  constructor <;> simp [init, isWake, cleared1, cleared2, mN, dN, fN, dS, pN, sp, used, Cb.onDrv]

theorem pN_le (c : Cb) : pN c ≤ sp c := by
  unfold pN sp; split <;> (try split) <;> simp_all

theorem sp_le (c : Cb) : sp c ≤ 1 := by unfold sp; split <;> simp
theorem dS_le (d : Dr) : dS d ≤ dN d := by unfold dS dN; split <;> (try split) <;> simp_all
theorem sp_used {c : Cb} (h : 1 ≤ sp c) : used c = true := by
  unfold sp at h; unfold used; split at h <;> simp_all

end Verif.UringOp
