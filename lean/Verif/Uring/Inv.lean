import Verif.Uring.Model
namespace Verif.Uring
set_option maxHeartbeats 4000000

/-- Where operation `i` is, with multiplicity. -/
def cI (s : St) (i : Nat) : Nat :=
  s.req.count i + s.ready.count i + s.pend.count (.op i) + s.tasks.count (.op i) + s.out.count (.op i) +
  s.sq.count (.op i) + s.ring.count (.op i) + s.cq.count (.op i) + s.lost.count (.op i)

/-- Where the wake-up operation is. -/
def cW (s : St) : Nat :=
  s.pend.count .wake + s.tasks.count .wake + s.out.count .wake + s.sq.count .wake + s.ring.count .wake +
  s.cq.count .wake

def accepted : OPc → Nat
  | .idle => 0
  | .acc => 0
  | _ => 1

def inFlight : OPc → Bool
  | .acc => true
  | .pushed => true
  | _ => false

/-- The driving thread is inside `submit`. -/
def inSub : Pc → Bool
  | .sub _ => true
  | .sub2 _ => true
  | _ => false

/-- `__pending_` is empty there. -/
def noPend : Pc → Bool
  | .sub _ => true
  | .sub2 _ => true
  | .idle => true
  | .ret => true
  | .ex => true
  | .cls => true
  | .start => true
  | .cq .last => true
  | .rdy .last => true
  | _ => false

/-- `__ready` may be non-empty there. -/
def hasReady : Pc → Bool
  | .sub _ => true
  | .sub2 _ => true
  | .cq .again => true
  | .cq .last => true
  | .rdy .again => true
  | .rdy .last => true
  | _ => false

/-- After closing the door. -/
def final : Pc → Bool
  | .pop .last => true
  | .sub true => true
  | .sub2 true => true
  | .cq .last => true
  | .rdy .last => true
  | _ => false

/-- After the loop. -/
def exiting : Pc → Bool
  | .ex => true
  | .cls => true
  | .ret => true
  | .idle => true
  | pc => final pc

/-- The driving thread pops the requests before it waits again. -/
def willPop : Pc → Bool
  | .rd => false
  | .sub _ => false
  | .sub2 _ => false
  | .chk => false
  | .enter => false
  | .wait => false
  | _ => true

/-- The operations' part; it needs no discipline. -/
structure InvO (s : St) : Prop where
  idle0 : ∀ i, s.n ≤ i → s.opc i = .idle
  ops : ∀ i, cI s i + s.done i = accepted (s.opc i)
  kout : ∀ t ∈ s.out, isReady s t = false
  ksq : ∀ t ∈ s.sq, isReady s t = false
  kring : ∀ t ∈ s.ring, isReady s t = false
  kcq : ∀ t ∈ s.cq, isReady s t = false
  kready : ∀ i ∈ s.ready, s.kind i = .ready
  inl : ∀ i, s.inl i = true → s.stopd i = true
  stopd : ∀ i, s.stopd i = true → s.everStop = true
  ever : s.stopReq = true → s.everStop = true
  clsd : s.closed = true → s.everStop = true
  stp : s.stp = true → s.everStop = true
  tk : inSub s.pc = false → s.tasks = [] ∧ s.out = []
  pn : inSub s.pc = true → ∀ i, s.pend.count (.op i) = 0
  fin : s.pc = .cls ∨ final s.pc = true → s.everStop = true

theorem count_ids (l : List T) (i : Nat) : (ids l).count i = l.count (.op i) := by
  induction l with
  | nil => rfl
  | cons t l ih => cases t <;> simp [ids, List.count_cons, ih]

theorem count_map_op (l : List Nat) (i : Nat) : (l.map T.op).count (.op i) = l.count i := by
  induction l with
  | nil => rfl
  | cons t l ih => simp [List.count_cons, ih]

theorem count_map_wake (l : List Nat) : (l.map T.op).count .wake = 0 := by
  induction l with
  | nil => rfl
  | cons t l ih => simp [List.count_cons, ih]

theorem count_take_drop {l : List T} (k : Nat) (t : T) : (l.take k).count t + (l.drop k).count t = l.count t := by
  rw [← List.count_append, List.take_append_drop]

end Verif.Uring
