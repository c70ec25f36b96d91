import Verif.Uring.StepO
namespace Verif.Uring
set_option maxHeartbeats 4000000

/-- The copies of the wake-up operation that are not yet in the completion ring. -/
def cW' (s : St) : Nat :=
  s.pend.count .wake + s.tasks.count .wake + s.out.count .wake + s.sq.count .wake + s.ring.count .wake

/-- The invariant under the discipline, as long as the final `submit` submitted nothing. -/
structure InvD (s : St) : Prop where
  o : InvO s
  caps : 2 ≤ s.slots ∧ s.slots ≤ s.cap
  infl : s.infl = cnt (fun i => inFlight (s.opc i)) s.n
  cls : s.closed = true → s.infl = 0 ∧ s.stopReq = true ∧ exiting s.pc = true
  len : s.total + s.nsub = s.sq.length + s.ring.length + s.cq.length
  nw : s.newly + s.nsub = s.sq.length
  mxb : s.nsub ≤ s.mx
  sqb : s.sq.length + s.mx ≤ s.slots + s.nsub
  capb : final s.pc = false → s.total + s.mx ≤ s.cap
  loc : inSub s.pc = false → s.nsub = 0 ∧ s.mx = 0
  full : inSub s.pc = true → s.cap ≤ s.total + s.mx ∨ s.slots + s.nsub ≤ s.sq.length + s.mx
  sub2 : ∀ f, s.pc = .sub2 f → s.tasks = [] ∨ s.nsub = s.mx
  outm : s.out ≠ [] → s.nsub = s.mx
  outp : ∀ f, s.pc = .sub f → s.out = []
  rdy : hasReady s.pc = false → s.ready = []
  pend1 : noPend s.pc = true → s.pend = []
  pend2 : s.pc = .chk ∨ s.pc = .enter ∨ s.pc = .wait → s.pend ≠ [] → s.slots ≤ s.total
  ent : s.pc = .enter ∨ s.pc = .wait → 1 ≤ s.total
  exi : exiting s.pc = true → s.total ≤ 1 ∧ (s.everBrk = false → s.total = 0)
  fin : s.pc = .cls ∨ final s.pc = true → s.stopReq = true
  fin2 : final s.pc = true → s.closed = true
  finq : s.closed = true → s.pc ≠ .pop .last → s.req = []
  fsub : final s.pc = true → inSub s.pc = true → s.nsub = 0 → s.stp = true ∧ 1 ≤ s.mx
  fr : s.fresh = true → s.pc = .idle ∧ s.closed = false ∧ cW s = 0
  st : s.pc = .start → s.closed = false ∧ cW s = 0
  cw : cW s ≤ 1
  cw1 : s.fresh = false → s.pc ≠ .start → s.stopReq = false → cW s = 1
  stp : ∀ f, s.pc = .sub f → s.stp = true → s.stopReq = true
  waitq : s.pc = .wait → s.sq = []
  brk : s.everBrk = false → s.brk = false
  ret : s.pc = .ret ∨ (s.pc = .idle ∧ s.fresh = false) → s.everBrk = false → s.closed = true
  tok : willPop s.pc = false → ∀ i ∈ s.req, s.opc i = .ret → s.efd = true ∨ .wake ∈ s.cq
  stok : s.stopReq = true → s.oweS = 0 → 0 < cW' s → s.efd = true
  bad : s.bad = false
  lost : s.lost = []

theorem invD_init {n : Nat} {kind : Nat → Kind} {cap slots : Nat} (h1 : 2 ≤ slots) (h2 : slots ≤ cap) :
    InvD (init n kind cap slots) := by
  have hc : cnt (fun i => inFlight ((init n kind cap slots).opc i)) n = 0 := cnt_zero_iff.2 (by simp [init, inFlight])
  constructor
  case o => exact invO_init n kind cap slots
  case infl => exact hc.symm
  all_goals simp [init, cW, cW', inSub, noPend, exiting, final, willPop, *]

end Verif.Uring
