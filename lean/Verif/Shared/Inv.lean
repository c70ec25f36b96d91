import Verif.Shared.Model
import Mathlib.Tactic.ByContra
/-! # `split` / `ensure_started`: the invariant -/
namespace Verif.Shared

/-- References to the shared state held by a consumer. -/
@[grind] def Pc.w : Pc → Nat
  | .unborn | .fin _ | .done | .gone => 0
  | .use _ true | .dropP _ => 2
  | _ => 1

/-- Between winning `__started_` and starting the operation. -/
@[grind] def Pc.launching : Pc → Bool
  | .setRef _ | .startOp _ => true
  | _ => false

@[grind] def Pc.isStartOp : Pc → Bool
  | .startOp _ => true
  | _ => false

@[grind] def Pc.isSetRef : Pc → Bool
  | .setRef _ => true
  | _ => false

/-- Not started. -/
@[grind] def Pc.fresh : Pc → Bool
  | .unborn | .holder | .tryStart true | .setRef true | .startOp true => true
  | _ => false

/-- Started, not yet completed, stop callback possibly running. -/
@[grind] def Pc.active : Pc → Bool
  | .check | .tryStart false | .setRef false | .startOp false | .addWaiter | .waiting | .notifySelf | .rst => true
  | _ => false

/-- Giving up because of a stop request. -/
@[grind] def Pc.giving (w : Why) : Pc → Bool
  | .det v | .use v _ | .dropP v | .drop v | .fin v => v == w
  | _ => false

/-- Completed. -/
@[grind] def Pc.over : Pc → Bool
  | .doneHeld | .done => true
  | _ => false

/-- Being destroyed. -/
@[grind] def Pc.dying : Pc → Bool
  | .det .dtor | .use .dtor _ | .dropP .dtor | .drop .dtor | .gone => true
  | _ => false

/-- Holds a reference and will still look at the use count. -/
@[grind] def Pc.pre : Pc → Bool
  | .unborn | .fin _ | .done | .gone | .use _ false | .dropP _ | .drop _ => false
  | _ => true

attribute [grind] Pc.detaching cbIdle

structure Inv (s : St) : Prop where
  andp : s.agents.Nodup
  amem : ∀ i, i ∈ s.agents ↔ s.pc i ≠ .unborn
  refs : s.refs = lsum Pc.w s.pc s.agents + s.startedRef.toNat
  dest : s.destroyed = true ↔ s.refs = 0
  uaf : s.uaf = false
  flag : s.startedFlag = false → s.op = .notStarted ∧ s.startedRef = false
  lau : ∀ i, (s.pc i).launching = true → s.startedFlag = true ∧ s.op = .notStarted
  lau1 : ∀ i j, (s.pc i).launching = true → (s.pc j).launching = true → i = j
  sref : ∀ i, (s.pc i).isSetRef = true → s.startedRef = false
  sop : ∀ i, (s.pc i).isStartOp = true → s.startedRef = true
  opr : s.op = .running ∨ s.op = .swap ∨ s.op = .notifying → s.startedRef = true
  opd : s.op = .done → s.startedRef = false
  opn : s.op = .notStarted → s.startedFlag = true → ∃ i, (s.pc i).launching = true
  starts : s.starts ≤ if s.op = .notStarted then 0 else 1
  wtr : s.waiters = none ↔ s.op = .notifying ∨ s.op = .done
  todo : s.todo ≠ [] → s.op = .notifying
  nd : (s.waiters.getD [] ++ s.todo).Nodup
  mem : ∀ i, i ∈ s.waiters.getD [] ++ s.todo ↔ s.pc i = .waiting
  self : ∀ i, s.pc i = .notifySelf → s.waiters = none
  addw : ∀ i, s.pc i = .addWaiter ∨ s.pc i = .waiting → s.startedFlag = true
  cbN : ∀ i, s.cb i = .none ↔ s.begun i = false
  cbB : ∀ i, s.cb i = .busy ↔ (s.pc i).giving .cb = true
  cbL : ∀ i, s.cb i = .lock → (s.pc i).active = true
  cbAr : ∀ i, s.cb i = .armed → (s.pc i).active = true
  cbR : ∀ i, s.cb i = .ret → (s.pc i).active = true ∨ s.pc i = .done ∨ s.pc i = .gone
  cbA : ∀ i, s.stopReq i = true → s.cb i ≠ .armed
  cbS : ∀ i, s.cb i = .lock ∨ s.cb i = .ret ∨ s.cb i = .busy → s.stopReq i = true
  fr : ∀ i, (s.pc i).fresh = true → s.begun i = false
  ac : ∀ i, (s.pc i).active = true ∨ (s.pc i).giving .start = true ∨ (s.pc i).giving .cb = true ∨
    (s.pc i).over = true → s.begun i = true
  gs : ∀ i, s.pc i = .rst ∨ (s.pc i).giving .start = true ∨ (s.pc i).giving .cb = true → s.stopReq i = true
  finW : ∀ i, s.pc i ≠ .fin .dtor
  res : ∀ i, (s.results i).length = if s.begun i = true ∧ ((s.pc i).over = true ∨ (s.pc i).dying = true) then 1 else 0
  resv : ∀ i r, r ∈ s.results i → (r = s.result ∧ (s.op = .notifying ∨ s.op = .done)) ∨ (r = .stopped ∧ s.stopReq i = true)
  ovl : s.overlap = false → ∀ i j, (s.pc i).detaching = true → (s.pc j).detaching = true → i = j
  canc : s.startedRef = true → s.overlap = false → s.workStop = false → ∃ i, (s.pc i).pre = true

/-- A pointwise field, when `i` alone changed and meets it trivially. -/
macro "pw" h:term:max i:term:max : tactic => `(tactic| (
  intro k; have hkp := $h k; by_cases hk : k = $i
  · rw [hk] at hkp ⊢
    simp [upd_same, Pc.launching, Pc.isStartOp, Pc.isSetRef, Pc.fresh, Pc.active, Pc.giving, Pc.over, Pc.dying] <;> simp_all
  · simp only [upd_other _ _ hk]; exact hkp))

/-- Split the goal into the invariant's fields and close those that are unaffected or only change at `i`. -/
macro "std" h:ident i:term:max : tactic => `(tactic| (
  constructor
  case' andp => (first | exact Inv.andp $h | (have hkp := Inv.andp $h; clear $h; grind) | skip)
  case' amem => (first | exact Inv.amem $h | (intro k; have hkp := Inv.amem $h k; clear $h; by_cases hk : k = $i; (rw [hk] at hkp ⊢; first | (simp [upd_same, Pc.launching, Pc.isStartOp, Pc.isSetRef, Pc.fresh, Pc.active, Pc.giving, Pc.over, Pc.dying] ; done) | grind | (simp [upd_same, Pc.launching, Pc.isStartOp, Pc.isSetRef, Pc.fresh, Pc.active, Pc.giving, Pc.over, Pc.dying] at hkp ⊢; grind) | (simp_all [upd_same, Pc.launching, Pc.isStartOp, Pc.isSetRef, Pc.fresh, Pc.active, Pc.giving, Pc.over, Pc.dying]; done)); (simp only [upd_other _ _ hk]; first | exact hkp | grind)) | (have hkp := Inv.amem $h; clear $h; grind) | skip)
  case' refs => (first | exact Inv.refs $h | (have hkp := Inv.refs $h; clear $h; grind) | skip)
  case' dest => (first | exact Inv.dest $h | (have hkp := Inv.dest $h; clear $h; grind) | skip)
  case' uaf => (first | exact Inv.uaf $h | (have hkp := Inv.uaf $h; clear $h; grind) | skip)
  case' flag => (first | exact Inv.flag $h | (have hkp := Inv.flag $h; clear $h; grind) | skip)
  case' lau => (first | exact Inv.lau $h | (intro k; have hkp := Inv.lau $h k; clear $h; by_cases hk : k = $i; (rw [hk] at hkp ⊢; first | (simp [upd_same, Pc.launching, Pc.isStartOp, Pc.isSetRef, Pc.fresh, Pc.active, Pc.giving, Pc.over, Pc.dying] ; done) | grind | (simp [upd_same, Pc.launching, Pc.isStartOp, Pc.isSetRef, Pc.fresh, Pc.active, Pc.giving, Pc.over, Pc.dying] at hkp ⊢; grind) | (simp_all [upd_same, Pc.launching, Pc.isStartOp, Pc.isSetRef, Pc.fresh, Pc.active, Pc.giving, Pc.over, Pc.dying]; done)); (simp only [upd_other _ _ hk]; first | exact hkp | grind)) | (have hkp := Inv.lau $h; clear $h; grind) | skip)
  case' lau1 => (first | exact Inv.lau1 $h | (intro k; have hkp := Inv.lau1 $h k; clear $h; by_cases hk : k = $i; (rw [hk] at hkp ⊢; first | (simp [upd_same, Pc.launching, Pc.isStartOp, Pc.isSetRef, Pc.fresh, Pc.active, Pc.giving, Pc.over, Pc.dying] ; done) | grind | (simp [upd_same, Pc.launching, Pc.isStartOp, Pc.isSetRef, Pc.fresh, Pc.active, Pc.giving, Pc.over, Pc.dying] at hkp ⊢; grind) | (simp_all [upd_same, Pc.launching, Pc.isStartOp, Pc.isSetRef, Pc.fresh, Pc.active, Pc.giving, Pc.over, Pc.dying]; done)); (simp only [upd_other _ _ hk]; first | exact hkp | grind)) | (have hkp := Inv.lau1 $h; clear $h; grind) | skip)
  case' sref => (first | exact Inv.sref $h | (intro k; have hkp := Inv.sref $h k; clear $h; by_cases hk : k = $i; (rw [hk] at hkp ⊢; first | (simp [upd_same, Pc.launching, Pc.isStartOp, Pc.isSetRef, Pc.fresh, Pc.active, Pc.giving, Pc.over, Pc.dying] ; done) | grind | (simp [upd_same, Pc.launching, Pc.isStartOp, Pc.isSetRef, Pc.fresh, Pc.active, Pc.giving, Pc.over, Pc.dying] at hkp ⊢; grind) | (simp_all [upd_same, Pc.launching, Pc.isStartOp, Pc.isSetRef, Pc.fresh, Pc.active, Pc.giving, Pc.over, Pc.dying]; done)); (simp only [upd_other _ _ hk]; first | exact hkp | grind)) | (have hkp := Inv.sref $h; clear $h; grind) | skip)
  case' sop => (first | exact Inv.sop $h | (intro k; have hkp := Inv.sop $h k; clear $h; by_cases hk : k = $i; (rw [hk] at hkp ⊢; first | (simp [upd_same, Pc.launching, Pc.isStartOp, Pc.isSetRef, Pc.fresh, Pc.active, Pc.giving, Pc.over, Pc.dying] ; done) | grind | (simp [upd_same, Pc.launching, Pc.isStartOp, Pc.isSetRef, Pc.fresh, Pc.active, Pc.giving, Pc.over, Pc.dying] at hkp ⊢; grind) | (simp_all [upd_same, Pc.launching, Pc.isStartOp, Pc.isSetRef, Pc.fresh, Pc.active, Pc.giving, Pc.over, Pc.dying]; done)); (simp only [upd_other _ _ hk]; first | exact hkp | grind)) | (have hkp := Inv.sop $h; clear $h; grind) | skip)
  case' opr => (first | exact Inv.opr $h | (have hkp := Inv.opr $h; clear $h; grind) | skip)
  case' opd => (first | exact Inv.opd $h | (have hkp := Inv.opd $h; clear $h; grind) | skip)
  case' opn => (first | exact Inv.opn $h | (have hkp := Inv.opn $h; clear $h; grind) | skip)
  case' starts => (first | exact Inv.starts $h | (have hkp := Inv.starts $h; clear $h; grind) | skip)
  case' wtr => (first | exact Inv.wtr $h | (have hkp := Inv.wtr $h; clear $h; grind) | skip)
  case' todo => (first | exact Inv.todo $h | (have hkp := Inv.todo $h; clear $h; grind) | skip)
  case' nd => (first | exact Inv.nd $h | (have hkp := Inv.nd $h; clear $h; grind) | skip)
  case' mem => (first | exact Inv.mem $h | (intro k; have hkp := Inv.mem $h k; clear $h; by_cases hk : k = $i; (rw [hk] at hkp ⊢; first | (simp [upd_same, Pc.launching, Pc.isStartOp, Pc.isSetRef, Pc.fresh, Pc.active, Pc.giving, Pc.over, Pc.dying] ; done) | grind | (simp [upd_same, Pc.launching, Pc.isStartOp, Pc.isSetRef, Pc.fresh, Pc.active, Pc.giving, Pc.over, Pc.dying] at hkp ⊢; grind) | (simp_all [upd_same, Pc.launching, Pc.isStartOp, Pc.isSetRef, Pc.fresh, Pc.active, Pc.giving, Pc.over, Pc.dying]; done)); (simp only [upd_other _ _ hk]; first | exact hkp | grind)) | (have hkp := Inv.mem $h; clear $h; grind) | skip)
  case' self => (first | exact Inv.self $h | (intro k; have hkp := Inv.self $h k; clear $h; by_cases hk : k = $i; (rw [hk] at hkp ⊢; first | (simp [upd_same, Pc.launching, Pc.isStartOp, Pc.isSetRef, Pc.fresh, Pc.active, Pc.giving, Pc.over, Pc.dying] ; done) | grind | (simp [upd_same, Pc.launching, Pc.isStartOp, Pc.isSetRef, Pc.fresh, Pc.active, Pc.giving, Pc.over, Pc.dying] at hkp ⊢; grind) | (simp_all [upd_same, Pc.launching, Pc.isStartOp, Pc.isSetRef, Pc.fresh, Pc.active, Pc.giving, Pc.over, Pc.dying]; done)); (simp only [upd_other _ _ hk]; first | exact hkp | grind)) | (have hkp := Inv.self $h; clear $h; grind) | skip)
  case' addw => (first | exact Inv.addw $h | (intro k; have hkp := Inv.addw $h k; clear $h; by_cases hk : k = $i; (rw [hk] at hkp ⊢; first | (simp [upd_same, Pc.launching, Pc.isStartOp, Pc.isSetRef, Pc.fresh, Pc.active, Pc.giving, Pc.over, Pc.dying] ; done) | grind | (simp [upd_same, Pc.launching, Pc.isStartOp, Pc.isSetRef, Pc.fresh, Pc.active, Pc.giving, Pc.over, Pc.dying] at hkp ⊢; grind) | (simp_all [upd_same, Pc.launching, Pc.isStartOp, Pc.isSetRef, Pc.fresh, Pc.active, Pc.giving, Pc.over, Pc.dying]; done)); (simp only [upd_other _ _ hk]; first | exact hkp | grind)) | (have hkp := Inv.addw $h; clear $h; grind) | skip)
  case' cbN => (first | exact Inv.cbN $h | (intro k; have hkp := Inv.cbN $h k; clear $h; by_cases hk : k = $i; (rw [hk] at hkp ⊢; first | (simp [upd_same, Pc.launching, Pc.isStartOp, Pc.isSetRef, Pc.fresh, Pc.active, Pc.giving, Pc.over, Pc.dying] ; done) | grind | (simp [upd_same, Pc.launching, Pc.isStartOp, Pc.isSetRef, Pc.fresh, Pc.active, Pc.giving, Pc.over, Pc.dying] at hkp ⊢; grind) | (simp_all [upd_same, Pc.launching, Pc.isStartOp, Pc.isSetRef, Pc.fresh, Pc.active, Pc.giving, Pc.over, Pc.dying]; done)); (simp only [upd_other _ _ hk]; first | exact hkp | grind)) | (have hkp := Inv.cbN $h; clear $h; grind) | skip)
  case' cbB => (first | exact Inv.cbB $h | (intro k; have hkp := Inv.cbB $h k; clear $h; by_cases hk : k = $i; (rw [hk] at hkp ⊢; first | (simp [upd_same, Pc.launching, Pc.isStartOp, Pc.isSetRef, Pc.fresh, Pc.active, Pc.giving, Pc.over, Pc.dying] ; done) | grind | (simp [upd_same, Pc.launching, Pc.isStartOp, Pc.isSetRef, Pc.fresh, Pc.active, Pc.giving, Pc.over, Pc.dying] at hkp ⊢; grind) | (simp_all [upd_same, Pc.launching, Pc.isStartOp, Pc.isSetRef, Pc.fresh, Pc.active, Pc.giving, Pc.over, Pc.dying]; done)); (simp only [upd_other _ _ hk]; first | exact hkp | grind)) | (have hkp := Inv.cbB $h; clear $h; grind) | skip)
  case' cbL => (first | exact Inv.cbL $h | (intro k; have hkp := Inv.cbL $h k; clear $h; by_cases hk : k = $i; (rw [hk] at hkp ⊢; first | (simp [upd_same, Pc.launching, Pc.isStartOp, Pc.isSetRef, Pc.fresh, Pc.active, Pc.giving, Pc.over, Pc.dying] ; done) | grind | (simp [upd_same, Pc.launching, Pc.isStartOp, Pc.isSetRef, Pc.fresh, Pc.active, Pc.giving, Pc.over, Pc.dying] at hkp ⊢; grind) | (simp_all [upd_same, Pc.launching, Pc.isStartOp, Pc.isSetRef, Pc.fresh, Pc.active, Pc.giving, Pc.over, Pc.dying]; done)); (simp only [upd_other _ _ hk]; first | exact hkp | grind)) | (have hkp := Inv.cbL $h; clear $h; grind) | skip)
  case' cbAr => (first | exact Inv.cbAr $h | (intro k; have hkp := Inv.cbAr $h k; clear $h; by_cases hk : k = $i; (rw [hk] at hkp ⊢; first | (simp [upd_same, Pc.launching, Pc.isStartOp, Pc.isSetRef, Pc.fresh, Pc.active, Pc.giving, Pc.over, Pc.dying] ; done) | grind | (simp [upd_same, Pc.launching, Pc.isStartOp, Pc.isSetRef, Pc.fresh, Pc.active, Pc.giving, Pc.over, Pc.dying] at hkp ⊢; grind) | (simp_all [upd_same, Pc.launching, Pc.isStartOp, Pc.isSetRef, Pc.fresh, Pc.active, Pc.giving, Pc.over, Pc.dying]; done)); (simp only [upd_other _ _ hk]; first | exact hkp | grind)) | (have hkp := Inv.cbAr $h; clear $h; grind) | skip)
  case' cbR => (first | exact Inv.cbR $h | (intro k; have hkp := Inv.cbR $h k; clear $h; by_cases hk : k = $i; (rw [hk] at hkp ⊢; first | (simp [upd_same, Pc.launching, Pc.isStartOp, Pc.isSetRef, Pc.fresh, Pc.active, Pc.giving, Pc.over, Pc.dying] ; done) | grind | (simp [upd_same, Pc.launching, Pc.isStartOp, Pc.isSetRef, Pc.fresh, Pc.active, Pc.giving, Pc.over, Pc.dying] at hkp ⊢; grind) | (simp_all [upd_same, Pc.launching, Pc.isStartOp, Pc.isSetRef, Pc.fresh, Pc.active, Pc.giving, Pc.over, Pc.dying]; done)); (simp only [upd_other _ _ hk]; first | exact hkp | grind)) | (have hkp := Inv.cbR $h; clear $h; grind) | skip)
  case' cbA => (first | exact Inv.cbA $h | (intro k; have hkp := Inv.cbA $h k; clear $h; by_cases hk : k = $i; (rw [hk] at hkp ⊢; first | (simp [upd_same, Pc.launching, Pc.isStartOp, Pc.isSetRef, Pc.fresh, Pc.active, Pc.giving, Pc.over, Pc.dying] ; done) | grind | (simp [upd_same, Pc.launching, Pc.isStartOp, Pc.isSetRef, Pc.fresh, Pc.active, Pc.giving, Pc.over, Pc.dying] at hkp ⊢; grind) | (simp_all [upd_same, Pc.launching, Pc.isStartOp, Pc.isSetRef, Pc.fresh, Pc.active, Pc.giving, Pc.over, Pc.dying]; done)); (simp only [upd_other _ _ hk]; first | exact hkp | grind)) | (have hkp := Inv.cbA $h; clear $h; grind) | skip)
  case' cbS => (first | exact Inv.cbS $h | (intro k; have hkp := Inv.cbS $h k; clear $h; by_cases hk : k = $i; (rw [hk] at hkp ⊢; first | (simp [upd_same, Pc.launching, Pc.isStartOp, Pc.isSetRef, Pc.fresh, Pc.active, Pc.giving, Pc.over, Pc.dying] ; done) | grind | (simp [upd_same, Pc.launching, Pc.isStartOp, Pc.isSetRef, Pc.fresh, Pc.active, Pc.giving, Pc.over, Pc.dying] at hkp ⊢; grind) | (simp_all [upd_same, Pc.launching, Pc.isStartOp, Pc.isSetRef, Pc.fresh, Pc.active, Pc.giving, Pc.over, Pc.dying]; done)); (simp only [upd_other _ _ hk]; first | exact hkp | grind)) | (have hkp := Inv.cbS $h; clear $h; grind) | skip)
  case' fr => (first | exact Inv.fr $h | (intro k; have hkp := Inv.fr $h k; clear $h; by_cases hk : k = $i; (rw [hk] at hkp ⊢; first | (simp [upd_same, Pc.launching, Pc.isStartOp, Pc.isSetRef, Pc.fresh, Pc.active, Pc.giving, Pc.over, Pc.dying] ; done) | grind | (simp [upd_same, Pc.launching, Pc.isStartOp, Pc.isSetRef, Pc.fresh, Pc.active, Pc.giving, Pc.over, Pc.dying] at hkp ⊢; grind) | (simp_all [upd_same, Pc.launching, Pc.isStartOp, Pc.isSetRef, Pc.fresh, Pc.active, Pc.giving, Pc.over, Pc.dying]; done)); (simp only [upd_other _ _ hk]; first | exact hkp | grind)) | (have hkp := Inv.fr $h; clear $h; grind) | skip)
  case' ac => (first | exact Inv.ac $h | (intro k; have hkp := Inv.ac $h k; clear $h; by_cases hk : k = $i; (rw [hk] at hkp ⊢; first | (simp [upd_same, Pc.launching, Pc.isStartOp, Pc.isSetRef, Pc.fresh, Pc.active, Pc.giving, Pc.over, Pc.dying] ; done) | grind | (simp [upd_same, Pc.launching, Pc.isStartOp, Pc.isSetRef, Pc.fresh, Pc.active, Pc.giving, Pc.over, Pc.dying] at hkp ⊢; grind) | (simp_all [upd_same, Pc.launching, Pc.isStartOp, Pc.isSetRef, Pc.fresh, Pc.active, Pc.giving, Pc.over, Pc.dying]; done)); (simp only [upd_other _ _ hk]; first | exact hkp | grind)) | (have hkp := Inv.ac $h; clear $h; grind) | skip)
  case' gs => (first | exact Inv.gs $h | (intro k; have hkp := Inv.gs $h k; clear $h; by_cases hk : k = $i; (rw [hk] at hkp ⊢; first | (simp [upd_same, Pc.launching, Pc.isStartOp, Pc.isSetRef, Pc.fresh, Pc.active, Pc.giving, Pc.over, Pc.dying] ; done) | grind | (simp [upd_same, Pc.launching, Pc.isStartOp, Pc.isSetRef, Pc.fresh, Pc.active, Pc.giving, Pc.over, Pc.dying] at hkp ⊢; grind) | (simp_all [upd_same, Pc.launching, Pc.isStartOp, Pc.isSetRef, Pc.fresh, Pc.active, Pc.giving, Pc.over, Pc.dying]; done)); (simp only [upd_other _ _ hk]; first | exact hkp | grind)) | (have hkp := Inv.gs $h; clear $h; grind) | skip)
  case' finW => (first | exact Inv.finW $h | (intro k; have hkp := Inv.finW $h k; clear $h; by_cases hk : k = $i; (rw [hk] at hkp ⊢; first | (simp [upd_same, Pc.launching, Pc.isStartOp, Pc.isSetRef, Pc.fresh, Pc.active, Pc.giving, Pc.over, Pc.dying] ; done) | grind | (simp [upd_same, Pc.launching, Pc.isStartOp, Pc.isSetRef, Pc.fresh, Pc.active, Pc.giving, Pc.over, Pc.dying] at hkp ⊢; grind) | (simp_all [upd_same, Pc.launching, Pc.isStartOp, Pc.isSetRef, Pc.fresh, Pc.active, Pc.giving, Pc.over, Pc.dying]; done)); (simp only [upd_other _ _ hk]; first | exact hkp | grind)) | (have hkp := Inv.finW $h; clear $h; grind) | skip)
  case' res => (first | exact Inv.res $h | (intro k; have hkp := Inv.res $h k; clear $h; by_cases hk : k = $i; (rw [hk] at hkp ⊢; first | (simp [upd_same, Pc.launching, Pc.isStartOp, Pc.isSetRef, Pc.fresh, Pc.active, Pc.giving, Pc.over, Pc.dying] ; done) | grind | (simp [upd_same, Pc.launching, Pc.isStartOp, Pc.isSetRef, Pc.fresh, Pc.active, Pc.giving, Pc.over, Pc.dying] at hkp ⊢; grind) | (simp_all [upd_same, Pc.launching, Pc.isStartOp, Pc.isSetRef, Pc.fresh, Pc.active, Pc.giving, Pc.over, Pc.dying]; done)); (simp only [upd_other _ _ hk]; first | exact hkp | grind)) | (have hkp := Inv.res $h; clear $h; grind) | skip)
  case' resv => (first | exact Inv.resv $h | (intro k; have hkp := Inv.resv $h k; clear $h; by_cases hk : k = $i; (rw [hk] at hkp ⊢; first | (simp [upd_same, Pc.launching, Pc.isStartOp, Pc.isSetRef, Pc.fresh, Pc.active, Pc.giving, Pc.over, Pc.dying] ; done) | grind | (simp [upd_same, Pc.launching, Pc.isStartOp, Pc.isSetRef, Pc.fresh, Pc.active, Pc.giving, Pc.over, Pc.dying] at hkp ⊢; grind) | (simp_all [upd_same, Pc.launching, Pc.isStartOp, Pc.isSetRef, Pc.fresh, Pc.active, Pc.giving, Pc.over, Pc.dying]; done)); (simp only [upd_other _ _ hk]; first | exact hkp | grind)) | (have hkp := Inv.resv $h; clear $h; grind) | skip)
  case' ovl => (first | exact Inv.ovl $h | (have hkp := Inv.ovl $h; clear $h; grind) | skip)
  case' canc => (first | exact Inv.canc $h | (have hkp := Inv.canc $h; clear $h; grind) | skip)
  ))


theorem inv_init : Inv init := by
  constructor <;> intros <;> simp_all [init, lsum] <;> grind

theorem sumW {s : St} (h : Inv s) {i : Nat} (hi : s.pc i ≠ .unborn) (p : Pc) :
    lsum Pc.w (upd s.pc i p) s.agents + (s.pc i).w = lsum Pc.w s.pc s.agents + p.w :=
  lsum_upd_in Pc.w s.pc h.andp ((h.amem i).2 hi)

theorem Inv.le {s : St} (h : Inv s) (i : Nat) : (s.pc i).w + s.startedRef.toNat ≤ s.refs := by
  by_cases hi : s.pc i = .unborn
  · have := h.refs; simp [hi, Pc.w]; omega
  · have := le_lsum Pc.w s.pc ((h.amem i).2 hi)
    have := h.refs; omega

theorem Inv.alive {s : St} (h : Inv s) {i : Nat} (hi : 1 ≤ (s.pc i).w) : s.destroyed = false := by
  have := h.le i
  have := h.dest
  cases hd : s.destroyed
  · rfl
  · rw [hd] at this; simp at this; omega

theorem Inv.aliveR {s : St} (h : Inv s) (hr : s.startedRef = true) : s.destroyed = false := by
  have := h.le 0
  have := h.dest
  cases hd : s.destroyed
  · rfl
  · rw [hd] at this; simp [hr] at *; omega

theorem ex_upd {f : Pc → Bool} {pc : Nat → Pc} {i : Nat} {p : Pc} (h : ∃ j, f (pc j) = true)
    (hp : f (pc i) = true → f p = true) : ∃ j, f (upd pc i p j) = true := by
  obtain ⟨j, hj⟩ := h
  by_cases hji : j = i
  · subst hji; exact ⟨j, by simp [hp hj]⟩
  · exact ⟨j, by rw [upd_other _ _ hji]; exact hj⟩

theorem ex_new {f : Pc → Bool} {pc : Nat → Pc} {i : Nat} {p : Pc} (hp : f p = true) :
    ∃ j, f (upd pc i p j) = true := ⟨i, by simp [hp]⟩

/-- If the counter shows more than one's own references, somebody else holds one. -/
theorem Inv.other {s : St} (h : Inv s) {i : Nat} (hi : (s.pc i).w + s.startedRef.toNat < s.refs) :
    ∃ j, j ≠ i ∧ 1 ≤ (s.pc j).w := by
  by_contra hc
  have hc : ∀ j, j ≠ i → (s.pc j).w = 0 := by
    intro j hj
    by_contra h0
    exact hc ⟨j, hj, by omega⟩
  have hs : lsum Pc.w s.pc s.agents = (s.pc i).w := by
    have := h.refs
    by_cases hui : s.pc i = .unborn
    · rw [hui]
      apply lsum_eq_zero
      intro j _
      by_cases hji : j = i
      · rw [hji, hui]; rfl
      · exact hc j hji
    · have h1 := sumW h hui .unborn
      have h2 : lsum Pc.w (upd s.pc i .unborn) s.agents = 0 := by
        apply lsum_eq_zero
        intro j _
        by_cases hji : j = i
        · rw [hji]; simp [Pc.w]
        · rw [upd_other _ _ hji]; exact hc j hji
      rw [h2] at h1; simp [Pc.w] at h1 ⊢; omega
  have := h.refs
  omega

theorem noDet {s : St} {i : Nat} (h : (s.agents.any fun j => j != i && (s.pc j).detaching) = false)
    (hm : ∀ j, j ∈ s.agents ↔ s.pc j ≠ .unborn) (j : Nat) (hj : (s.pc j).detaching = true) : j = i := by
  rw [List.any_eq_false] at h
  by_contra hne
  have := h j ((hm j).2 (by intro h0; simp [h0, Pc.detaching] at hj))
  simp [hne, hj] at this

theorem ovl_upd {pc : Nat → Pc} {i : Nat} {p : Pc}
    (h : ∀ a b, (pc a).detaching = true → (pc b).detaching = true → a = b)
    (hp : p.detaching = true → (pc i).detaching = true) (a b : Nat) :
    (upd pc i p a).detaching = true → (upd pc i p b).detaching = true → a = b := by
  have := h a b
  by_cases ha : a = i <;> by_cases hb : b = i <;> simp_all [upd_apply] <;> grind

theorem ovl_new {s : St} {i : Nat} {p : Pc} (hm : ∀ j, j ∈ s.agents ↔ s.pc j ≠ .unborn)
    (h : (s.overlap || s.agents.any fun j => j != i && (s.pc j).detaching) = false) (a b : Nat) :
    (upd s.pc i p a).detaching = true → (upd s.pc i p b).detaching = true → a = b := by
  have hn := noDet (s := s) (i := i) (by simp only [Bool.or_eq_false_iff] at h; exact h.2) hm
  intro ha hb
  have : ∀ c, (upd s.pc i p c).detaching = true → c = i := by
    intro c hc
    by_cases hci : c = i
    · exact hci
    · rw [upd_other _ _ hci] at hc; exact hn c hc
  rw [this a ha, this b hb]

end Verif.Shared
