import Verif.WinPool.Model
/-!
# Invariant
-/
namespace Verif.WinPool
set_option maxHeartbeats 4000000

def SPC.pre : SPC → Bool
  | .idle => true | .check => true | .early => true | .reg => true | .inLoad => true | .inCas .. => true | .submit => true
  | _ => false
def SPC.compl : SPC → Bool
  | .wait => true | .unreg => true | .stopped => true
  | _ => false
def TPC.compl : TPC → Bool
  | .wait => true | .unreg => true | .stopped => true
  | _ => false
def TPC.early : TPC → Bool
  | .load => true | .cas .. => true
  | _ => false
def WPC.act : WPC → Bool
  | .unreg => true | .run => true | .detach => true | .value => true
  | _ => false

/-- Invariant of an operation with a stop token. -/
structure Inv (x : St) : Prop where
  bad : x.bad = false
  pre : x.s.pre = true → x.w = .off ∧ x.sub = false ∧ x.stg = false ∧ x.run = false ∧ x.ptr = true ∧ x.freed = 0 ∧ x.alive = true ∧ x.sigs = []
  cb0 : x.s = .idle ∨ x.s = .check ∨ x.s = .early ∨ x.s = .reg → x.cb = .none ∧ x.t = .idle ∧ x.stp = false
  cb1 : x.s = .inLoad ∨ (∃ a b c d, x.s = .inCas a b c d) → x.cb = .ran ∧ x.t = .idle ∧ x.stopReq = true ∧ x.stp = false
  cas0 : ∀ a b c d, x.s = .inCas a b c d → a = false ∧ b = false ∧ c = false ∧ d = false
  early : x.s = .early → x.stopReq = true
  us : x.s ≠ .usubmit
  sub1 : x.sub = true → x.s.pre = false ∧ x.s ≠ .add
  sub2 : x.s.compl = true ∨ x.s = .del → x.sub = true
  armed : x.cb = .armed → x.t = .idle ∧ x.stopReq = false ∧ x.alive = true ∧ x.stp = false ∧ x.freed = 0 ∧ x.ptr = true ∧ x.run = false ∧
    x.s.compl = false
  none_ : x.cb = .none → x.t = .idle ∧ x.stp = false ∧ x.w = .off
  ran : x.cb = .ran → x.alive = true ∧ x.stopReq = true ∧ (x.t = .idle ∨ x.t = .ret)
  running : x.cb = .running → x.alive = true ∧ x.stopReq = true ∧ (x.t.early = true ∨ x.t = .wait ∨ x.t = .unreg)
  tEarly : x.t.early = true → x.cb = .running ∧ x.stp = false ∧ x.alive = true ∧ x.freed = 0 ∧ x.ptr = true ∧ x.s.compl = false ∧ x.run = false
  tCas : ∀ a b c d, x.t = .cas a b c d → b = false ∧ c = false ∧ d = false ∧ (a = true → x.sub = true)
  tWait : x.t = .wait ∨ x.t = .unreg → x.cb = .running
  tCompl : x.t.compl = true → x.stp = true ∧ x.sub = true ∧ x.alive = true ∧ x.s = .ret ∧ x.ptr = true ∧ x.freed = 0 ∧ x.sigs = []
  tStop : x.t = .stopped → x.cb = .gone
  tIdle : x.t = .unreg ∨ x.t = .stopped → x.w.idle = true ∧ x.w ≠ .queued
  sCompl : x.s.compl = true → x.stp = true ∧ x.alive = true ∧ x.ptr = true ∧ x.freed = 0 ∧ x.sigs = [] ∧ (x.cb = .ran ∨ x.cb = .running ∨ x.cb = .gone)
    ∧ x.t.compl = false ∧ (x.cb = .gone → x.s = .stopped)
  sStop : x.s = .stopped → x.cb = .gone
  sIdle : x.s = .unreg ∨ x.s = .stopped → x.w.idle = true ∧ x.w ≠ .queued
  stpReq : x.stp = true → x.stopReq = true ∧ x.w.act = false ∧ x.run = false
  stpWho : x.stp = true → x.alive = true → x.s.compl = true ∨ x.t.compl = true ∨ x.s = .submit ∨ x.s = .add
  wq : x.w = .queued ∨ x.w = .start → x.stg = false ∧ x.run = false ∧ x.alive = true ∧ x.ptr = true ∧ x.freed = 0
  woff : x.w = .off → x.stg = false ∧ x.run = false
  wact : x.w.act = true → x.stg = true ∧ x.alive = true ∧ x.sigs = [] ∧ x.stp = false ∧ x.s.compl = false ∧ x.freed ≤ 1
  wunreg : x.w = .unreg → x.run = false ∧ x.ptr = true ∧ x.freed = 0 ∧ (x.cb = .armed ∨ x.cb = .running ∨ x.cb = .ran) ∧ x.s ≠ .del
  wrun : x.w = .run → x.run = false ∧ x.cb = .gone ∧ x.ptr = true ∧ x.freed = 0 ∧ x.s ≠ .del
  wdet : x.w = .detach → x.run = true ∧ x.cb = .gone ∧ x.ptr = true ∧ ((x.freed = 0 ∧ (x.s = .add ∨ x.s = .del)) ∨ (x.freed = 1 ∧ x.s = .ret))
  wval : x.w = .value → x.run = true ∧ x.cb = .gone ∧
    ((x.ptr = true ∧ x.freed = 0 ∧ x.s = .ret) ∨ (x.ptr = false ∧ ((x.freed = 0 ∧ (x.s = .add ∨ x.s = .del)) ∨ (x.freed = 1 ∧ x.s = .ret))))
  wret : x.w = .ret → (x.stp = true) ∨ (x.run = true ∧ x.cb = .gone ∧ x.alive = false ∧ x.sigs = [.value])
  del : x.s = .del → x.run = true
  addF : x.s = .add → x.freed = 0
  addL : x.s = .add → x.run = false → x.alive = true
  alive : x.alive = true → x.sigs = []
  end_ : x.alive = false → (x.freed = 1 ∨ ((x.s = .add ∨ x.s = .del) ∧ x.run = true ∧ x.freed = 0)) ∧
    (x.sigs = [] ∧ x.s = .ret ∧ x.w = .off ∧ x.cb = .none ∨ x.sigs = [.stopped] ∧ x.stopReq = true ∧ x.s = .ret ∨
      x.sigs = [.value] ∧ x.run = true ∧ x.w = .ret) ∧ (x.cb = .gone ∨ x.cb = .none)
  go : x.s = .ret ∨ x.s = .add → x.alive = true → x.stp = false → x.w = .queued ∨ x.w = .start ∨ x.w.act = true
  gone : x.cb = .gone → x.s = .stopped ∨ x.t = .stopped ∨ x.alive = false ∨ x.w = .run ∨ x.w = .detach ∨ x.w = .value
  sub3 : x.sub = true → x.s.compl = true ∨ x.s = .del ∨ x.s = .ret
  sub4 : x.sub = false → x.s.pre = true ∨ x.s = .add ∨ (x.s = .ret ∧ x.alive = false)
  cb2 : x.s = .submit → x.cb ≠ .none
  ptrF : x.ptr = false → x.run = true
  delF : x.s = .del → x.freed = 0
  runW : x.run = true → x.w = .detach ∨ x.w = .value ∨ (x.w = .ret ∧ x.alive = false)
  st0 : x.s = .idle → x.started = false
  st1 : x.alive = false → x.sigs = [] → x.started = false
  offQ : x.w = .off → x.alive = true → x.s.pre = false → x.s.compl = true ∨ x.t.compl = true

theorem inv_init : Inv (init true) := by
  constructor <;> simp [init, SPC.pre, SPC.compl, TPC.compl, TPC.early, WPC.act, WPC.idle]

set_option hygiene false in
macro "fields" : tactic => `(tactic| (
  have e1 := h.bad; have e2 := h.pre; have e3 := h.cb0; have e4 := h.cb1; have e5 := h.cas0; have e6 := h.early; have e7 := h.us
  have e8 := h.sub1; have e9 := h.sub2; have e10 := h.armed; have e11 := h.none_; have e12 := h.ran; have e13 := h.running; have e14 := h.tEarly
  have e15 := h.tCas; have e16 := h.tWait; have e17 := h.tCompl; have e18 := h.tStop; have e19 := h.tIdle; have e20 := h.sCompl
  have e21 := h.sStop; have e22 := h.sIdle; have e23 := h.stpReq; have e24 := h.stpWho; have e25 := h.wq; have e26 := h.woff; have e27 := h.wact
  have e28 := h.wunreg; have e29 := h.wrun; have e30 := h.wdet; have e31 := h.wval; have e32 := h.wret; have e33 := h.del; have e34 := h.addF
  have e35 := h.addL; have e36 := h.alive; have e37 := h.end_; have e38 := h.go; have e39 := h.offQ
  have e40 := h.gone; have e41 := h.sub3; have e42 := h.sub4; have e43 := h.cb2; have e44 := h.ptrF; have e45 := h.delF; have e46 := h.runW; have e47 := h.st0; have e48 := h.st1))

set_option hygiene false in
macro "fin" : tactic => `(tactic| (
  constructor <;> first
    | assumption
    | grind [SPC.pre, SPC.compl, TPC.compl, TPC.early, WPC.act, WPC.idle, St.op, St.fl, St.ld, St.flCopy, St.done]
    | (cases hcb : x.cb <;> grind [SPC.pre, SPC.compl, TPC.compl, TPC.early, WPC.act, WPC.idle, St.op, St.fl, St.ld, St.flCopy, St.done])
    | (cases hxs : x.s <;> grind [SPC.pre, SPC.compl, TPC.compl, TPC.early, WPC.act, WPC.idle, St.op, St.fl, St.ld, St.flCopy, St.done])
    | skip))

theorem inv_start (x y : St) (h : Inv x) (hs : step x .start = some y) : Inv y := by
  fields; simp only [step] at hs; split at hs <;> cases hs; clear h; fin
theorem inv_drop (x y : St) (h : Inv x) (hs : step x .drop = some y) : Inv y := by
  fields; simp only [step] at hs; split at hs <;> cases hs; clear h; fin
theorem inv_fire (x y : St) (h : Inv x) (hs : step x .fire = some y) : Inv y := by
  fields; simp only [step] at hs; split at hs <;> cases hs; clear h; fin
theorem inv_req (x y : St) (h : Inv x) (hs : step x .reqStop = some y) : Inv y := by
  fields; simp only [step] at hs; repeat' split at hs
  all_goals cases hs
  all_goals clear h; fin
theorem inv_w (x y : St) (h : Inv x) (hs : step x .w = some y) : Inv y := by
  fields; simp only [step] at hs; split at hs
  all_goals try (split at hs)
  all_goals cases hs
  all_goals clear h; fin
theorem inv_t (x y : St) (h : Inv x) (hs : step x .t = some y) : Inv y := by
  fields; simp only [step] at hs; split at hs
  all_goals repeat' (split at hs)
  all_goals cases hs
  all_goals clear h; fin
theorem inv_s (x y : St) (h : Inv x) (hs : step x .s = some y) : Inv y := by
  fields; simp only [step] at hs; split at hs
  all_goals repeat' (split at hs)
  all_goals cases hs
  all_goals clear h; fin

end Verif.WinPool
