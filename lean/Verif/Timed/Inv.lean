import Verif.Timed.Model
/-! # `timed_thread_context` — invariant -/
namespace Verif.Timed

/-- The reference is held by somebody. -/
def Ref.live : Ref → Bool
  | .none => false
  | .gone => false
  | _ => true

/-- The run thread holds the start reference of this operation. -/
def RPc.hs : RPc → Option Nat
  | .erased i => some i
  | .val i => some i
  | .dstop i => some i
  | _ => none
/-- The run thread holds the stop reference of this operation. -/
def RPc.ht : RPc → Option Nat
  | .erased i => some i
  | .stopOp i => some i
  | _ => none
/-- The run thread is completing this operation. -/
def RPc.f : RPc → Option Nat
  | .fin i _ _ => some i
  | _ => none
/-- The run thread has closed the context. -/
def RPc.dr : RPc → Bool
  | .drain => true
  | .dstop _ => true
  | .exit => true
  | .fin _ _ k => k == 3
  | _ => false
/-- In the region counted by `n_submissions_in_flight_`. -/
def Sub.counted : Sub → Bool
  | .push => true
  | .link _ => true
  | .notify => true
  | .sub => true
  | _ => false
def SPc.counted : SPc → Bool
  | .sub p => p.counted
  | _ => false
def Cb.counted : Cb → Bool
  | .sub p => p.counted
  | _ => false
def SPc.linking : SPc → Bool
  | .sub (.link _) => true
  | _ => false
def Cb.linking : Cb → Bool
  | .sub (.link _) => true
  | _ => false
def Cb.isSub : Cb → Bool
  | .sub _ => true
  | _ => false
def Ev.isDone (i : Nat) : Ev → Bool
  | .done j _ _ => j == i
  | _ => false

/-- Whatever fires comes, in the order `R`, before everything that had been accepted and had not yet fired or been
cancelled. -/
def Ordered (R : Nat → Nat → Bool) (log : List Ev) : Prop :=
  ∀ pre i post j n, log = pre ++ Ev.fire i :: post → Ev.accept j n ∈ pre → Ev.fire j ∉ pre → Ev.cancel j ∉ pre →
    j ≠ i → R i j = true

structure Inv (s : St) : Prop where
  spPre : ∀ i, (s.sp i = .idle ∨ s.sp i = .emplace ∨ s.sp i = .inl ∨ s.sp i = .cas ∨ s.sp i = .reset) → s.ss i = .none
  spSub : ∀ i, (s.sp i = .sub .add ∨ s.sp i = .sub .push ∨ s.sp i = .sub .closed) ↔ s.ss i = .sub
  spLink : ∀ i, (s.sp i).linking = true → s.ss i = .queued
  spMid : ∀ i, (s.sp i = .sub .notify ∨ s.sp i = .sub .sub) → s.ss i ≠ .none
  spFin : ∀ i, s.sp i = .sub .fin → s.ss i = .gone
  spDone : ∀ i, s.sp i = .done → s.ss i = .none → s.dead i = true
  spEarly : ∀ i, (s.sp i = .idle ∨ s.sp i = .emplace) → s.cb i = .off
  cbPre : ∀ i, (s.cb i = .off ∨ s.cb i = .armed ∨ s.cb i = .call) → s.ts i = .none
  cbSub : ∀ i, (s.cb i = .sub .add ∨ s.cb i = .sub .push ∨ s.cb i = .sub .closed) ↔ s.ts i = .sub
  cbLink : ∀ i, (s.cb i).linking = true → s.ts i = .queued
  cbMid : ∀ i, (s.cb i = .sub .notify ∨ s.cb i = .sub .sub ∨ s.cb i = .ran) → s.ts i ≠ .none
  cbFin : ∀ i, s.cb i = .sub .fin → s.ts i = .gone
  cbSS : ∀ i, (s.cb i).isSub = true → s.ss i ≠ .none
  cbOff : ∀ i, s.cb i = .off → s.sp i = .idle ∨ s.sp i = .emplace ∨ s.dead i = true
  tsHeap : ∀ i, s.ts i ≠ .heap
  qS : ∀ i, Cmd.sched i ∈ s.q.map Prod.fst ↔ s.ss i = .queued
  qT : ∀ i, Cmd.stop i ∈ s.q.map Prod.fst ↔ s.ts i = .queued
  qN : (s.q.map Prod.fst).Nodup
  qSl : ∀ i, (Cmd.sched i, true) ∈ s.q → (s.sp i).linking = false
  qTl : ∀ i, (Cmd.stop i, true) ∈ s.q → (s.cb i).linking = false
  hM : ∀ i, i ∈ s.heap ↔ s.ss i = .heap
  hN : s.heap.Nodup
  hC : ∀ i, i ∈ s.heap → s.num i < s.counter
  hP : s.heap.Pairwise (fun i j => before s.dl s.num i j = true)
  heldS : ∀ i, s.ss i = .held ↔ s.run.hs = some i
  heldT : ∀ i, s.ts i = .held ↔ s.run.ht = some i
  refN : ∀ i, s.ss i = .none → s.ref i = if s.cb i = .ran then 1 else 0
  refNT : ∀ i, s.ss i = .none → (s.ts i).live = false
  refL : ∀ i, (s.ss i).live = true → s.ref i = if (s.ts i).live = true then 2 else 1
  refG : ∀ i, s.ss i = .gone → (s.ts i).live = true → s.ref i = 1
  refG0 : ∀ i, s.ss i = .gone → s.ts i = .none → s.ref i = 0
  finR : ∀ i, s.run.f = some i → s.dead i = false ∧ s.ss i = .gone ∧ (s.ts i).live = false ∧ s.sp i ≠ .sub .fin ∧ s.cb i ≠ .sub .fin
  finS : ∀ i, s.sp i = .sub .fin → s.dead i = false ∧ (s.ts i).live = false ∧ s.cb i ≠ .sub .fin
  finC : ∀ i, s.cb i = .sub .fin → s.dead i = false ∧ s.ss i = .gone
  finZ : ∀ i, s.sp i = .reset → s.dead i = false ∧ s.cb i = .ran
  dead1 : ∀ i, s.dead i = true → (s.ss i).live = false ∧ (s.ts i).live = false ∧ (s.cb i = .off ∨ s.cb i = .ran)
  dead2 : ∀ i, s.dead i = true → s.sp i = .sub .notify ∨ s.sp i = .sub .sub ∨ s.sp i = .done
  alive : ∀ i, s.ss i = .gone → (s.ts i).live = false → s.dead i = true ∨ s.run.f = some i ∨ s.sp i = .sub .fin ∨ s.cb i = .sub .fin
  fin0 : ∀ i o, s.run ≠ .fin i o 0
  flL : s.infl = s.fl.length
  flN : s.fl.Nodup
  flS : ∀ i, Cmd.sched i ∈ s.fl ↔ (s.sp i).counted = true
  flT : ∀ i, Cmd.stop i ∈ s.fl ↔ (s.cb i).counted = true
  flC : s.closed = true → s.fl = []
  clR : s.closed = s.run.dr
  clQ : (s.closed = true ∨ s.run = .close) → s.stopReq = true
  clS : ∀ i, (s.sp i = .sub .closed ∨ s.sp i = .sub .fin) → s.closed = true
  clT : ∀ i, (s.cb i = .sub .closed ∨ s.cb i = .sub .fin) → s.closed = true
  tmN : s.snap ≤ s.now
  tmV : ∀ i, s.run = .val i → s.dl i ≤ s.snap
  tmF : ∀ i k, s.run = .fin i .value k → s.dl i ≤ s.snap
  lgV : ∀ i t, Ev.done i .value t ∈ s.log → s.dl i ≤ t
  lgC : ∀ i, s.log.countP (Ev.isDone i) = if s.dead i then 1 else 0
  tk1 : ∀ i, (s.ts i ≠ .none ∨ s.cb i = .call) → s.tok i = true
  fSt : ∀ i k, s.run = .fin i .stopped k → s.tok i = true ∨ s.stopReq = true
  lgS : ∀ i t, Ev.done i .stopped t ∈ s.log → s.tok i = true ∨ s.stopReq = true
  acc : ∀ i n, Ev.accept i n ∈ s.log → s.num i = n ∧ (s.ss i = .heap ∨ s.ss i = .held ∨ s.ss i = .gone)
  accH : ∀ i n, Ev.accept i n ∈ s.log → Ev.fire i ∈ s.log ∨ Ev.cancel i ∈ s.log ∨ i ∈ s.heap
  ord : Ordered (before s.dl s.num) s.log
  ordA : ∀ i, Ev.fire i ∈ s.log → s.ss i = .held ∨ s.ss i = .gone
  lt1 : ∀ i, s.late i = true → s.sp i = .done
  lt2 : ∀ i, s.late i = true → s.ss i = .queued → s.ts i = .queued → [Cmd.sched i, Cmd.stop i].Sublist (s.q.map Prod.fst)
  lt3 : ∀ i, s.closed = false → s.late i = true → (s.ts i = .held ∨ s.ts i = .gone) → s.ss i ≠ .queued ∧ s.ss i ≠ .heap
  bd : s.bad = false

/-- Split the goal into the invariant's fields and close those that are unaffected or only change at `i`. -/
macro "std" h:ident i:term:max : tactic => `(tactic| (
  constructor
  case' spPre => (first | exact Inv.spPre $h | (intro k; have hkp := Inv.spPre $h k; clear $h; by_cases hk : k = $i; (rw [hk] at hkp ⊢; first | grind | (simp [upd_same, Ref.live, RPc.hs, RPc.ht, RPc.f, RPc.dr, RPc.overlap, Sub.counted, SPc.counted, Cb.counted, SPc.linking, Cb.linking, Cb.isSub] ; done) | (simp [upd_same, Ref.live, RPc.hs, RPc.ht, RPc.f, RPc.dr, RPc.overlap, Sub.counted, SPc.counted, Cb.counted, SPc.linking, Cb.linking, Cb.isSub] at hkp ⊢; grind) | (simp_all [upd_same, Ref.live, RPc.hs, RPc.ht, RPc.f, RPc.dr, RPc.overlap, Sub.counted, SPc.counted, Cb.counted, SPc.linking, Cb.linking, Cb.isSub]; done)); (simp only [upd_other _ _ hk]; first | exact hkp | grind)) | (have hkp := Inv.spPre $h; clear $h; grind) | skip)
  case' spSub => (first | exact Inv.spSub $h | (intro k; have hkp := Inv.spSub $h k; clear $h; by_cases hk : k = $i; (rw [hk] at hkp ⊢; first | grind | (simp [upd_same, Ref.live, RPc.hs, RPc.ht, RPc.f, RPc.dr, RPc.overlap, Sub.counted, SPc.counted, Cb.counted, SPc.linking, Cb.linking, Cb.isSub] ; done) | (simp [upd_same, Ref.live, RPc.hs, RPc.ht, RPc.f, RPc.dr, RPc.overlap, Sub.counted, SPc.counted, Cb.counted, SPc.linking, Cb.linking, Cb.isSub] at hkp ⊢; grind) | (simp_all [upd_same, Ref.live, RPc.hs, RPc.ht, RPc.f, RPc.dr, RPc.overlap, Sub.counted, SPc.counted, Cb.counted, SPc.linking, Cb.linking, Cb.isSub]; done)); (simp only [upd_other _ _ hk]; first | exact hkp | grind)) | (have hkp := Inv.spSub $h; clear $h; grind) | skip)
  case' spLink => (first | exact Inv.spLink $h | (intro k; have hkp := Inv.spLink $h k; clear $h; by_cases hk : k = $i; (rw [hk] at hkp ⊢; first | grind | (simp [upd_same, Ref.live, RPc.hs, RPc.ht, RPc.f, RPc.dr, RPc.overlap, Sub.counted, SPc.counted, Cb.counted, SPc.linking, Cb.linking, Cb.isSub] ; done) | (simp [upd_same, Ref.live, RPc.hs, RPc.ht, RPc.f, RPc.dr, RPc.overlap, Sub.counted, SPc.counted, Cb.counted, SPc.linking, Cb.linking, Cb.isSub] at hkp ⊢; grind) | (simp_all [upd_same, Ref.live, RPc.hs, RPc.ht, RPc.f, RPc.dr, RPc.overlap, Sub.counted, SPc.counted, Cb.counted, SPc.linking, Cb.linking, Cb.isSub]; done)); (simp only [upd_other _ _ hk]; first | exact hkp | grind)) | (have hkp := Inv.spLink $h; clear $h; grind) | skip)
  case' spMid => (first | exact Inv.spMid $h | (intro k; have hkp := Inv.spMid $h k; clear $h; by_cases hk : k = $i; (rw [hk] at hkp ⊢; first | grind | (simp [upd_same, Ref.live, RPc.hs, RPc.ht, RPc.f, RPc.dr, RPc.overlap, Sub.counted, SPc.counted, Cb.counted, SPc.linking, Cb.linking, Cb.isSub] ; done) | (simp [upd_same, Ref.live, RPc.hs, RPc.ht, RPc.f, RPc.dr, RPc.overlap, Sub.counted, SPc.counted, Cb.counted, SPc.linking, Cb.linking, Cb.isSub] at hkp ⊢; grind) | (simp_all [upd_same, Ref.live, RPc.hs, RPc.ht, RPc.f, RPc.dr, RPc.overlap, Sub.counted, SPc.counted, Cb.counted, SPc.linking, Cb.linking, Cb.isSub]; done)); (simp only [upd_other _ _ hk]; first | exact hkp | grind)) | (have hkp := Inv.spMid $h; clear $h; grind) | skip)
  case' spFin => (first | exact Inv.spFin $h | (intro k; have hkp := Inv.spFin $h k; clear $h; by_cases hk : k = $i; (rw [hk] at hkp ⊢; first | grind | (simp [upd_same, Ref.live, RPc.hs, RPc.ht, RPc.f, RPc.dr, RPc.overlap, Sub.counted, SPc.counted, Cb.counted, SPc.linking, Cb.linking, Cb.isSub] ; done) | (simp [upd_same, Ref.live, RPc.hs, RPc.ht, RPc.f, RPc.dr, RPc.overlap, Sub.counted, SPc.counted, Cb.counted, SPc.linking, Cb.linking, Cb.isSub] at hkp ⊢; grind) | (simp_all [upd_same, Ref.live, RPc.hs, RPc.ht, RPc.f, RPc.dr, RPc.overlap, Sub.counted, SPc.counted, Cb.counted, SPc.linking, Cb.linking, Cb.isSub]; done)); (simp only [upd_other _ _ hk]; first | exact hkp | grind)) | (have hkp := Inv.spFin $h; clear $h; grind) | skip)
  case' spDone => (first | exact Inv.spDone $h | (intro k; have hkp := Inv.spDone $h k; clear $h; by_cases hk : k = $i; (rw [hk] at hkp ⊢; first | grind | (simp [upd_same, Ref.live, RPc.hs, RPc.ht, RPc.f, RPc.dr, RPc.overlap, Sub.counted, SPc.counted, Cb.counted, SPc.linking, Cb.linking, Cb.isSub] ; done) | (simp [upd_same, Ref.live, RPc.hs, RPc.ht, RPc.f, RPc.dr, RPc.overlap, Sub.counted, SPc.counted, Cb.counted, SPc.linking, Cb.linking, Cb.isSub] at hkp ⊢; grind) | (simp_all [upd_same, Ref.live, RPc.hs, RPc.ht, RPc.f, RPc.dr, RPc.overlap, Sub.counted, SPc.counted, Cb.counted, SPc.linking, Cb.linking, Cb.isSub]; done)); (simp only [upd_other _ _ hk]; first | exact hkp | grind)) | (have hkp := Inv.spDone $h; clear $h; grind) | skip)
  case' spEarly => (first | exact Inv.spEarly $h | (intro k; have hkp := Inv.spEarly $h k; clear $h; by_cases hk : k = $i; (rw [hk] at hkp ⊢; first | grind | (simp [upd_same, Ref.live, RPc.hs, RPc.ht, RPc.f, RPc.dr, RPc.overlap, Sub.counted, SPc.counted, Cb.counted, SPc.linking, Cb.linking, Cb.isSub] ; done) | (simp [upd_same, Ref.live, RPc.hs, RPc.ht, RPc.f, RPc.dr, RPc.overlap, Sub.counted, SPc.counted, Cb.counted, SPc.linking, Cb.linking, Cb.isSub] at hkp ⊢; grind) | (simp_all [upd_same, Ref.live, RPc.hs, RPc.ht, RPc.f, RPc.dr, RPc.overlap, Sub.counted, SPc.counted, Cb.counted, SPc.linking, Cb.linking, Cb.isSub]; done)); (simp only [upd_other _ _ hk]; first | exact hkp | grind)) | (have hkp := Inv.spEarly $h; clear $h; grind) | skip)
  case' cbPre => (first | exact Inv.cbPre $h | (intro k; have hkp := Inv.cbPre $h k; clear $h; by_cases hk : k = $i; (rw [hk] at hkp ⊢; first | grind | (simp [upd_same, Ref.live, RPc.hs, RPc.ht, RPc.f, RPc.dr, RPc.overlap, Sub.counted, SPc.counted, Cb.counted, SPc.linking, Cb.linking, Cb.isSub] ; done) | (simp [upd_same, Ref.live, RPc.hs, RPc.ht, RPc.f, RPc.dr, RPc.overlap, Sub.counted, SPc.counted, Cb.counted, SPc.linking, Cb.linking, Cb.isSub] at hkp ⊢; grind) | (simp_all [upd_same, Ref.live, RPc.hs, RPc.ht, RPc.f, RPc.dr, RPc.overlap, Sub.counted, SPc.counted, Cb.counted, SPc.linking, Cb.linking, Cb.isSub]; done)); (simp only [upd_other _ _ hk]; first | exact hkp | grind)) | (have hkp := Inv.cbPre $h; clear $h; grind) | skip)
  case' cbSub => (first | exact Inv.cbSub $h | (intro k; have hkp := Inv.cbSub $h k; clear $h; by_cases hk : k = $i; (rw [hk] at hkp ⊢; first | grind | (simp [upd_same, Ref.live, RPc.hs, RPc.ht, RPc.f, RPc.dr, RPc.overlap, Sub.counted, SPc.counted, Cb.counted, SPc.linking, Cb.linking, Cb.isSub] ; done) | (simp [upd_same, Ref.live, RPc.hs, RPc.ht, RPc.f, RPc.dr, RPc.overlap, Sub.counted, SPc.counted, Cb.counted, SPc.linking, Cb.linking, Cb.isSub] at hkp ⊢; grind) | (simp_all [upd_same, Ref.live, RPc.hs, RPc.ht, RPc.f, RPc.dr, RPc.overlap, Sub.counted, SPc.counted, Cb.counted, SPc.linking, Cb.linking, Cb.isSub]; done)); (simp only [upd_other _ _ hk]; first | exact hkp | grind)) | (have hkp := Inv.cbSub $h; clear $h; grind) | skip)
  case' cbLink => (first | exact Inv.cbLink $h | (intro k; have hkp := Inv.cbLink $h k; clear $h; by_cases hk : k = $i; (rw [hk] at hkp ⊢; first | grind | (simp [upd_same, Ref.live, RPc.hs, RPc.ht, RPc.f, RPc.dr, RPc.overlap, Sub.counted, SPc.counted, Cb.counted, SPc.linking, Cb.linking, Cb.isSub] ; done) | (simp [upd_same, Ref.live, RPc.hs, RPc.ht, RPc.f, RPc.dr, RPc.overlap, Sub.counted, SPc.counted, Cb.counted, SPc.linking, Cb.linking, Cb.isSub] at hkp ⊢; grind) | (simp_all [upd_same, Ref.live, RPc.hs, RPc.ht, RPc.f, RPc.dr, RPc.overlap, Sub.counted, SPc.counted, Cb.counted, SPc.linking, Cb.linking, Cb.isSub]; done)); (simp only [upd_other _ _ hk]; first | exact hkp | grind)) | (have hkp := Inv.cbLink $h; clear $h; grind) | skip)
  case' cbMid => (first | exact Inv.cbMid $h | (intro k; have hkp := Inv.cbMid $h k; clear $h; by_cases hk : k = $i; (rw [hk] at hkp ⊢; first | grind | (simp [upd_same, Ref.live, RPc.hs, RPc.ht, RPc.f, RPc.dr, RPc.overlap, Sub.counted, SPc.counted, Cb.counted, SPc.linking, Cb.linking, Cb.isSub] ; done) | (simp [upd_same, Ref.live, RPc.hs, RPc.ht, RPc.f, RPc.dr, RPc.overlap, Sub.counted, SPc.counted, Cb.counted, SPc.linking, Cb.linking, Cb.isSub] at hkp ⊢; grind) | (simp_all [upd_same, Ref.live, RPc.hs, RPc.ht, RPc.f, RPc.dr, RPc.overlap, Sub.counted, SPc.counted, Cb.counted, SPc.linking, Cb.linking, Cb.isSub]; done)); (simp only [upd_other _ _ hk]; first | exact hkp | grind)) | (have hkp := Inv.cbMid $h; clear $h; grind) | skip)
  case' cbFin => (first | exact Inv.cbFin $h | (intro k; have hkp := Inv.cbFin $h k; clear $h; by_cases hk : k = $i; (rw [hk] at hkp ⊢; first | grind | (simp [upd_same, Ref.live, RPc.hs, RPc.ht, RPc.f, RPc.dr, RPc.overlap, Sub.counted, SPc.counted, Cb.counted, SPc.linking, Cb.linking, Cb.isSub] ; done) | (simp [upd_same, Ref.live, RPc.hs, RPc.ht, RPc.f, RPc.dr, RPc.overlap, Sub.counted, SPc.counted, Cb.counted, SPc.linking, Cb.linking, Cb.isSub] at hkp ⊢; grind) | (simp_all [upd_same, Ref.live, RPc.hs, RPc.ht, RPc.f, RPc.dr, RPc.overlap, Sub.counted, SPc.counted, Cb.counted, SPc.linking, Cb.linking, Cb.isSub]; done)); (simp only [upd_other _ _ hk]; first | exact hkp | grind)) | (have hkp := Inv.cbFin $h; clear $h; grind) | skip)
  case' cbSS => (first | exact Inv.cbSS $h | (intro k; have hkp := Inv.cbSS $h k; clear $h; by_cases hk : k = $i; (rw [hk] at hkp ⊢; first | grind | (simp [upd_same, Ref.live, RPc.hs, RPc.ht, RPc.f, RPc.dr, RPc.overlap, Sub.counted, SPc.counted, Cb.counted, SPc.linking, Cb.linking, Cb.isSub] ; done) | (simp [upd_same, Ref.live, RPc.hs, RPc.ht, RPc.f, RPc.dr, RPc.overlap, Sub.counted, SPc.counted, Cb.counted, SPc.linking, Cb.linking, Cb.isSub] at hkp ⊢; grind) | (simp_all [upd_same, Ref.live, RPc.hs, RPc.ht, RPc.f, RPc.dr, RPc.overlap, Sub.counted, SPc.counted, Cb.counted, SPc.linking, Cb.linking, Cb.isSub]; done)); (simp only [upd_other _ _ hk]; first | exact hkp | grind)) | (have hkp := Inv.cbSS $h; clear $h; grind) | skip)
  case' cbOff => (first | exact Inv.cbOff $h | (intro k; have hkp := Inv.cbOff $h k; clear $h; by_cases hk : k = $i; (rw [hk] at hkp ⊢; first | grind | (simp [upd_same, Ref.live, RPc.hs, RPc.ht, RPc.f, RPc.dr, RPc.overlap, Sub.counted, SPc.counted, Cb.counted, SPc.linking, Cb.linking, Cb.isSub] ; done) | (simp [upd_same, Ref.live, RPc.hs, RPc.ht, RPc.f, RPc.dr, RPc.overlap, Sub.counted, SPc.counted, Cb.counted, SPc.linking, Cb.linking, Cb.isSub] at hkp ⊢; grind) | (simp_all [upd_same, Ref.live, RPc.hs, RPc.ht, RPc.f, RPc.dr, RPc.overlap, Sub.counted, SPc.counted, Cb.counted, SPc.linking, Cb.linking, Cb.isSub]; done)); (simp only [upd_other _ _ hk]; first | exact hkp | grind)) | (have hkp := Inv.cbOff $h; clear $h; grind) | skip)
  case' tsHeap => (first | exact Inv.tsHeap $h | (intro k; have hkp := Inv.tsHeap $h k; clear $h; by_cases hk : k = $i; (rw [hk] at hkp ⊢; first | grind | (simp [upd_same, Ref.live, RPc.hs, RPc.ht, RPc.f, RPc.dr, RPc.overlap, Sub.counted, SPc.counted, Cb.counted, SPc.linking, Cb.linking, Cb.isSub] ; done) | (simp [upd_same, Ref.live, RPc.hs, RPc.ht, RPc.f, RPc.dr, RPc.overlap, Sub.counted, SPc.counted, Cb.counted, SPc.linking, Cb.linking, Cb.isSub] at hkp ⊢; grind) | (simp_all [upd_same, Ref.live, RPc.hs, RPc.ht, RPc.f, RPc.dr, RPc.overlap, Sub.counted, SPc.counted, Cb.counted, SPc.linking, Cb.linking, Cb.isSub]; done)); (simp only [upd_other _ _ hk]; first | exact hkp | grind)) | (have hkp := Inv.tsHeap $h; clear $h; grind) | skip)
  case' qS => (first | exact Inv.qS $h | (intro k; have hkp := Inv.qS $h k; clear $h; by_cases hk : k = $i; (rw [hk] at hkp ⊢; first | grind | (simp [upd_same, Ref.live, RPc.hs, RPc.ht, RPc.f, RPc.dr, RPc.overlap, Sub.counted, SPc.counted, Cb.counted, SPc.linking, Cb.linking, Cb.isSub] ; done) | (simp [upd_same, Ref.live, RPc.hs, RPc.ht, RPc.f, RPc.dr, RPc.overlap, Sub.counted, SPc.counted, Cb.counted, SPc.linking, Cb.linking, Cb.isSub] at hkp ⊢; grind) | (simp_all [upd_same, Ref.live, RPc.hs, RPc.ht, RPc.f, RPc.dr, RPc.overlap, Sub.counted, SPc.counted, Cb.counted, SPc.linking, Cb.linking, Cb.isSub]; done)); (simp only [upd_other _ _ hk]; first | exact hkp | grind)) | (have hkp := Inv.qS $h; clear $h; grind) | skip)
  case' qT => (first | exact Inv.qT $h | (intro k; have hkp := Inv.qT $h k; clear $h; by_cases hk : k = $i; (rw [hk] at hkp ⊢; first | grind | (simp [upd_same, Ref.live, RPc.hs, RPc.ht, RPc.f, RPc.dr, RPc.overlap, Sub.counted, SPc.counted, Cb.counted, SPc.linking, Cb.linking, Cb.isSub] ; done) | (simp [upd_same, Ref.live, RPc.hs, RPc.ht, RPc.f, RPc.dr, RPc.overlap, Sub.counted, SPc.counted, Cb.counted, SPc.linking, Cb.linking, Cb.isSub] at hkp ⊢; grind) | (simp_all [upd_same, Ref.live, RPc.hs, RPc.ht, RPc.f, RPc.dr, RPc.overlap, Sub.counted, SPc.counted, Cb.counted, SPc.linking, Cb.linking, Cb.isSub]; done)); (simp only [upd_other _ _ hk]; first | exact hkp | grind)) | (have hkp := Inv.qT $h; clear $h; grind) | skip)
  case' qN => (first | exact Inv.qN $h | (have hkp := Inv.qN $h; clear $h; grind) | skip)
  case' qSl => (first | exact Inv.qSl $h | (intro k; have hkp := Inv.qSl $h k; clear $h; by_cases hk : k = $i; (rw [hk] at hkp ⊢; first | grind | (simp [upd_same, Ref.live, RPc.hs, RPc.ht, RPc.f, RPc.dr, RPc.overlap, Sub.counted, SPc.counted, Cb.counted, SPc.linking, Cb.linking, Cb.isSub] ; done) | (simp [upd_same, Ref.live, RPc.hs, RPc.ht, RPc.f, RPc.dr, RPc.overlap, Sub.counted, SPc.counted, Cb.counted, SPc.linking, Cb.linking, Cb.isSub] at hkp ⊢; grind) | (simp_all [upd_same, Ref.live, RPc.hs, RPc.ht, RPc.f, RPc.dr, RPc.overlap, Sub.counted, SPc.counted, Cb.counted, SPc.linking, Cb.linking, Cb.isSub]; done)); (simp only [upd_other _ _ hk]; first | exact hkp | grind)) | (have hkp := Inv.qSl $h; clear $h; grind) | skip)
  case' qTl => (first | exact Inv.qTl $h | (intro k; have hkp := Inv.qTl $h k; clear $h; by_cases hk : k = $i; (rw [hk] at hkp ⊢; first | grind | (simp [upd_same, Ref.live, RPc.hs, RPc.ht, RPc.f, RPc.dr, RPc.overlap, Sub.counted, SPc.counted, Cb.counted, SPc.linking, Cb.linking, Cb.isSub] ; done) | (simp [upd_same, Ref.live, RPc.hs, RPc.ht, RPc.f, RPc.dr, RPc.overlap, Sub.counted, SPc.counted, Cb.counted, SPc.linking, Cb.linking, Cb.isSub] at hkp ⊢; grind) | (simp_all [upd_same, Ref.live, RPc.hs, RPc.ht, RPc.f, RPc.dr, RPc.overlap, Sub.counted, SPc.counted, Cb.counted, SPc.linking, Cb.linking, Cb.isSub]; done)); (simp only [upd_other _ _ hk]; first | exact hkp | grind)) | (have hkp := Inv.qTl $h; clear $h; grind) | skip)
  case' hM => (first | exact Inv.hM $h | (intro k; have hkp := Inv.hM $h k; clear $h; by_cases hk : k = $i; (rw [hk] at hkp ⊢; first | grind | (simp [upd_same, Ref.live, RPc.hs, RPc.ht, RPc.f, RPc.dr, RPc.overlap, Sub.counted, SPc.counted, Cb.counted, SPc.linking, Cb.linking, Cb.isSub] ; done) | (simp [upd_same, Ref.live, RPc.hs, RPc.ht, RPc.f, RPc.dr, RPc.overlap, Sub.counted, SPc.counted, Cb.counted, SPc.linking, Cb.linking, Cb.isSub] at hkp ⊢; grind) | (simp_all [upd_same, Ref.live, RPc.hs, RPc.ht, RPc.f, RPc.dr, RPc.overlap, Sub.counted, SPc.counted, Cb.counted, SPc.linking, Cb.linking, Cb.isSub]; done)); (simp only [upd_other _ _ hk]; first | exact hkp | grind)) | (have hkp := Inv.hM $h; clear $h; grind) | skip)
  case' hN => (first | exact Inv.hN $h | (have hkp := Inv.hN $h; clear $h; grind) | skip)
  case' hC => (first | exact Inv.hC $h | (intro k; have hkp := Inv.hC $h k; clear $h; by_cases hk : k = $i; (rw [hk] at hkp ⊢; first | grind | (simp [upd_same, Ref.live, RPc.hs, RPc.ht, RPc.f, RPc.dr, RPc.overlap, Sub.counted, SPc.counted, Cb.counted, SPc.linking, Cb.linking, Cb.isSub] ; done) | (simp [upd_same, Ref.live, RPc.hs, RPc.ht, RPc.f, RPc.dr, RPc.overlap, Sub.counted, SPc.counted, Cb.counted, SPc.linking, Cb.linking, Cb.isSub] at hkp ⊢; grind) | (simp_all [upd_same, Ref.live, RPc.hs, RPc.ht, RPc.f, RPc.dr, RPc.overlap, Sub.counted, SPc.counted, Cb.counted, SPc.linking, Cb.linking, Cb.isSub]; done)); (simp only [upd_other _ _ hk]; first | exact hkp | grind)) | (have hkp := Inv.hC $h; clear $h; grind) | skip)
  case' hP => (first | exact Inv.hP $h | (have hkp := Inv.hP $h; clear $h; grind) | skip)
  case' heldS => (first | exact Inv.heldS $h | (intro k; have hkp := Inv.heldS $h k; clear $h; by_cases hk : k = $i; (rw [hk] at hkp ⊢; first | grind | (simp [upd_same, Ref.live, RPc.hs, RPc.ht, RPc.f, RPc.dr, RPc.overlap, Sub.counted, SPc.counted, Cb.counted, SPc.linking, Cb.linking, Cb.isSub] ; done) | (simp [upd_same, Ref.live, RPc.hs, RPc.ht, RPc.f, RPc.dr, RPc.overlap, Sub.counted, SPc.counted, Cb.counted, SPc.linking, Cb.linking, Cb.isSub] at hkp ⊢; grind) | (simp_all [upd_same, Ref.live, RPc.hs, RPc.ht, RPc.f, RPc.dr, RPc.overlap, Sub.counted, SPc.counted, Cb.counted, SPc.linking, Cb.linking, Cb.isSub]; done)); (simp only [upd_other _ _ hk]; first | exact hkp | grind)) | (have hkp := Inv.heldS $h; clear $h; grind) | skip)
  case' heldT => (first | exact Inv.heldT $h | (intro k; have hkp := Inv.heldT $h k; clear $h; by_cases hk : k = $i; (rw [hk] at hkp ⊢; first | grind | (simp [upd_same, Ref.live, RPc.hs, RPc.ht, RPc.f, RPc.dr, RPc.overlap, Sub.counted, SPc.counted, Cb.counted, SPc.linking, Cb.linking, Cb.isSub] ; done) | (simp [upd_same, Ref.live, RPc.hs, RPc.ht, RPc.f, RPc.dr, RPc.overlap, Sub.counted, SPc.counted, Cb.counted, SPc.linking, Cb.linking, Cb.isSub] at hkp ⊢; grind) | (simp_all [upd_same, Ref.live, RPc.hs, RPc.ht, RPc.f, RPc.dr, RPc.overlap, Sub.counted, SPc.counted, Cb.counted, SPc.linking, Cb.linking, Cb.isSub]; done)); (simp only [upd_other _ _ hk]; first | exact hkp | grind)) | (have hkp := Inv.heldT $h; clear $h; grind) | skip)
  case' refN => (first | exact Inv.refN $h | (intro k; have hkp := Inv.refN $h k; clear $h; by_cases hk : k = $i; (rw [hk] at hkp ⊢; first | grind | (simp [upd_same, Ref.live, RPc.hs, RPc.ht, RPc.f, RPc.dr, RPc.overlap, Sub.counted, SPc.counted, Cb.counted, SPc.linking, Cb.linking, Cb.isSub] ; done) | (simp [upd_same, Ref.live, RPc.hs, RPc.ht, RPc.f, RPc.dr, RPc.overlap, Sub.counted, SPc.counted, Cb.counted, SPc.linking, Cb.linking, Cb.isSub] at hkp ⊢; grind) | (simp_all [upd_same, Ref.live, RPc.hs, RPc.ht, RPc.f, RPc.dr, RPc.overlap, Sub.counted, SPc.counted, Cb.counted, SPc.linking, Cb.linking, Cb.isSub]; done)); (simp only [upd_other _ _ hk]; first | exact hkp | grind)) | (have hkp := Inv.refN $h; clear $h; grind) | skip)
  case' refNT => (first | exact Inv.refNT $h | (intro k; have hkp := Inv.refNT $h k; clear $h; by_cases hk : k = $i; (rw [hk] at hkp ⊢; first | grind | (simp [upd_same, Ref.live, RPc.hs, RPc.ht, RPc.f, RPc.dr, RPc.overlap, Sub.counted, SPc.counted, Cb.counted, SPc.linking, Cb.linking, Cb.isSub] ; done) | (simp [upd_same, Ref.live, RPc.hs, RPc.ht, RPc.f, RPc.dr, RPc.overlap, Sub.counted, SPc.counted, Cb.counted, SPc.linking, Cb.linking, Cb.isSub] at hkp ⊢; grind) | (simp_all [upd_same, Ref.live, RPc.hs, RPc.ht, RPc.f, RPc.dr, RPc.overlap, Sub.counted, SPc.counted, Cb.counted, SPc.linking, Cb.linking, Cb.isSub]; done)); (simp only [upd_other _ _ hk]; first | exact hkp | grind)) | (have hkp := Inv.refNT $h; clear $h; grind) | skip)
  case' refL => (first | exact Inv.refL $h | (intro k; have hkp := Inv.refL $h k; clear $h; by_cases hk : k = $i; (rw [hk] at hkp ⊢; first | grind | (simp [upd_same, Ref.live, RPc.hs, RPc.ht, RPc.f, RPc.dr, RPc.overlap, Sub.counted, SPc.counted, Cb.counted, SPc.linking, Cb.linking, Cb.isSub] ; done) | (simp [upd_same, Ref.live, RPc.hs, RPc.ht, RPc.f, RPc.dr, RPc.overlap, Sub.counted, SPc.counted, Cb.counted, SPc.linking, Cb.linking, Cb.isSub] at hkp ⊢; grind) | (simp_all [upd_same, Ref.live, RPc.hs, RPc.ht, RPc.f, RPc.dr, RPc.overlap, Sub.counted, SPc.counted, Cb.counted, SPc.linking, Cb.linking, Cb.isSub]; done)); (simp only [upd_other _ _ hk]; first | exact hkp | grind)) | (have hkp := Inv.refL $h; clear $h; grind) | skip)
  case' refG => (first | exact Inv.refG $h | (intro k; have hkp := Inv.refG $h k; clear $h; by_cases hk : k = $i; (rw [hk] at hkp ⊢; first | grind | (simp [upd_same, Ref.live, RPc.hs, RPc.ht, RPc.f, RPc.dr, RPc.overlap, Sub.counted, SPc.counted, Cb.counted, SPc.linking, Cb.linking, Cb.isSub] ; done) | (simp [upd_same, Ref.live, RPc.hs, RPc.ht, RPc.f, RPc.dr, RPc.overlap, Sub.counted, SPc.counted, Cb.counted, SPc.linking, Cb.linking, Cb.isSub] at hkp ⊢; grind) | (simp_all [upd_same, Ref.live, RPc.hs, RPc.ht, RPc.f, RPc.dr, RPc.overlap, Sub.counted, SPc.counted, Cb.counted, SPc.linking, Cb.linking, Cb.isSub]; done)); (simp only [upd_other _ _ hk]; first | exact hkp | grind)) | (have hkp := Inv.refG $h; clear $h; grind) | skip)
  case' refG0 => (first | exact Inv.refG0 $h | (intro k; have hkp := Inv.refG0 $h k; clear $h; by_cases hk : k = $i; (rw [hk] at hkp ⊢; first | grind | (simp [upd_same, Ref.live, RPc.hs, RPc.ht, RPc.f, RPc.dr, RPc.overlap, Sub.counted, SPc.counted, Cb.counted, SPc.linking, Cb.linking, Cb.isSub] ; done) | (simp [upd_same, Ref.live, RPc.hs, RPc.ht, RPc.f, RPc.dr, RPc.overlap, Sub.counted, SPc.counted, Cb.counted, SPc.linking, Cb.linking, Cb.isSub] at hkp ⊢; grind) | (simp_all [upd_same, Ref.live, RPc.hs, RPc.ht, RPc.f, RPc.dr, RPc.overlap, Sub.counted, SPc.counted, Cb.counted, SPc.linking, Cb.linking, Cb.isSub]; done)); (simp only [upd_other _ _ hk]; first | exact hkp | grind)) | (have hkp := Inv.refG0 $h; clear $h; grind) | skip)
  case' finR => (first | exact Inv.finR $h | (intro k; have hkp := Inv.finR $h k; clear $h; by_cases hk : k = $i; (rw [hk] at hkp ⊢; first | grind | (simp [upd_same, Ref.live, RPc.hs, RPc.ht, RPc.f, RPc.dr, RPc.overlap, Sub.counted, SPc.counted, Cb.counted, SPc.linking, Cb.linking, Cb.isSub] ; done) | (simp [upd_same, Ref.live, RPc.hs, RPc.ht, RPc.f, RPc.dr, RPc.overlap, Sub.counted, SPc.counted, Cb.counted, SPc.linking, Cb.linking, Cb.isSub] at hkp ⊢; grind) | (simp_all [upd_same, Ref.live, RPc.hs, RPc.ht, RPc.f, RPc.dr, RPc.overlap, Sub.counted, SPc.counted, Cb.counted, SPc.linking, Cb.linking, Cb.isSub]; done)); (simp only [upd_other _ _ hk]; first | exact hkp | grind)) | (have hkp := Inv.finR $h; clear $h; grind) | skip)
  case' finS => (first | exact Inv.finS $h | (intro k; have hkp := Inv.finS $h k; clear $h; by_cases hk : k = $i; (rw [hk] at hkp ⊢; first | grind | (simp [upd_same, Ref.live, RPc.hs, RPc.ht, RPc.f, RPc.dr, RPc.overlap, Sub.counted, SPc.counted, Cb.counted, SPc.linking, Cb.linking, Cb.isSub] ; done) | (simp [upd_same, Ref.live, RPc.hs, RPc.ht, RPc.f, RPc.dr, RPc.overlap, Sub.counted, SPc.counted, Cb.counted, SPc.linking, Cb.linking, Cb.isSub] at hkp ⊢; grind) | (simp_all [upd_same, Ref.live, RPc.hs, RPc.ht, RPc.f, RPc.dr, RPc.overlap, Sub.counted, SPc.counted, Cb.counted, SPc.linking, Cb.linking, Cb.isSub]; done)); (simp only [upd_other _ _ hk]; first | exact hkp | grind)) | (have hkp := Inv.finS $h; clear $h; grind) | skip)
  case' finC => (first | exact Inv.finC $h | (intro k; have hkp := Inv.finC $h k; clear $h; by_cases hk : k = $i; (rw [hk] at hkp ⊢; first | grind | (simp [upd_same, Ref.live, RPc.hs, RPc.ht, RPc.f, RPc.dr, RPc.overlap, Sub.counted, SPc.counted, Cb.counted, SPc.linking, Cb.linking, Cb.isSub] ; done) | (simp [upd_same, Ref.live, RPc.hs, RPc.ht, RPc.f, RPc.dr, RPc.overlap, Sub.counted, SPc.counted, Cb.counted, SPc.linking, Cb.linking, Cb.isSub] at hkp ⊢; grind) | (simp_all [upd_same, Ref.live, RPc.hs, RPc.ht, RPc.f, RPc.dr, RPc.overlap, Sub.counted, SPc.counted, Cb.counted, SPc.linking, Cb.linking, Cb.isSub]; done)); (simp only [upd_other _ _ hk]; first | exact hkp | grind)) | (have hkp := Inv.finC $h; clear $h; grind) | skip)
  case' finZ => (first | exact Inv.finZ $h | (intro k; have hkp := Inv.finZ $h k; clear $h; by_cases hk : k = $i; (rw [hk] at hkp ⊢; first | grind | (simp [upd_same, Ref.live, RPc.hs, RPc.ht, RPc.f, RPc.dr, RPc.overlap, Sub.counted, SPc.counted, Cb.counted, SPc.linking, Cb.linking, Cb.isSub] ; done) | (simp [upd_same, Ref.live, RPc.hs, RPc.ht, RPc.f, RPc.dr, RPc.overlap, Sub.counted, SPc.counted, Cb.counted, SPc.linking, Cb.linking, Cb.isSub] at hkp ⊢; grind) | (simp_all [upd_same, Ref.live, RPc.hs, RPc.ht, RPc.f, RPc.dr, RPc.overlap, Sub.counted, SPc.counted, Cb.counted, SPc.linking, Cb.linking, Cb.isSub]; done)); (simp only [upd_other _ _ hk]; first | exact hkp | grind)) | (have hkp := Inv.finZ $h; clear $h; grind) | skip)
  case' dead1 => (first | exact Inv.dead1 $h | (intro k; have hkp := Inv.dead1 $h k; clear $h; by_cases hk : k = $i; (rw [hk] at hkp ⊢; first | grind | (simp [upd_same, Ref.live, RPc.hs, RPc.ht, RPc.f, RPc.dr, RPc.overlap, Sub.counted, SPc.counted, Cb.counted, SPc.linking, Cb.linking, Cb.isSub] ; done) | (simp [upd_same, Ref.live, RPc.hs, RPc.ht, RPc.f, RPc.dr, RPc.overlap, Sub.counted, SPc.counted, Cb.counted, SPc.linking, Cb.linking, Cb.isSub] at hkp ⊢; grind) | (simp_all [upd_same, Ref.live, RPc.hs, RPc.ht, RPc.f, RPc.dr, RPc.overlap, Sub.counted, SPc.counted, Cb.counted, SPc.linking, Cb.linking, Cb.isSub]; done)); (simp only [upd_other _ _ hk]; first | exact hkp | grind)) | (have hkp := Inv.dead1 $h; clear $h; grind) | skip)
  case' dead2 => (first | exact Inv.dead2 $h | (intro k; have hkp := Inv.dead2 $h k; clear $h; by_cases hk : k = $i; (rw [hk] at hkp ⊢; first | grind | (simp [upd_same, Ref.live, RPc.hs, RPc.ht, RPc.f, RPc.dr, RPc.overlap, Sub.counted, SPc.counted, Cb.counted, SPc.linking, Cb.linking, Cb.isSub] ; done) | (simp [upd_same, Ref.live, RPc.hs, RPc.ht, RPc.f, RPc.dr, RPc.overlap, Sub.counted, SPc.counted, Cb.counted, SPc.linking, Cb.linking, Cb.isSub] at hkp ⊢; grind) | (simp_all [upd_same, Ref.live, RPc.hs, RPc.ht, RPc.f, RPc.dr, RPc.overlap, Sub.counted, SPc.counted, Cb.counted, SPc.linking, Cb.linking, Cb.isSub]; done)); (simp only [upd_other _ _ hk]; first | exact hkp | grind)) | (have hkp := Inv.dead2 $h; clear $h; grind) | skip)
  case' alive => (first | exact Inv.alive $h | (intro k; have hkp := Inv.alive $h k; clear $h; by_cases hk : k = $i; (rw [hk] at hkp ⊢; first | grind | (simp [upd_same, Ref.live, RPc.hs, RPc.ht, RPc.f, RPc.dr, RPc.overlap, Sub.counted, SPc.counted, Cb.counted, SPc.linking, Cb.linking, Cb.isSub] ; done) | (simp [upd_same, Ref.live, RPc.hs, RPc.ht, RPc.f, RPc.dr, RPc.overlap, Sub.counted, SPc.counted, Cb.counted, SPc.linking, Cb.linking, Cb.isSub] at hkp ⊢; grind) | (simp_all [upd_same, Ref.live, RPc.hs, RPc.ht, RPc.f, RPc.dr, RPc.overlap, Sub.counted, SPc.counted, Cb.counted, SPc.linking, Cb.linking, Cb.isSub]; done)); (simp only [upd_other _ _ hk]; first | exact hkp | grind)) | (have hkp := Inv.alive $h; clear $h; grind) | skip)
  case' fin0 => (first | exact Inv.fin0 $h | (intro k; have hkp := Inv.fin0 $h k; clear $h; by_cases hk : k = $i; (rw [hk] at hkp ⊢; first | grind | (simp [upd_same, Ref.live, RPc.hs, RPc.ht, RPc.f, RPc.dr, RPc.overlap, Sub.counted, SPc.counted, Cb.counted, SPc.linking, Cb.linking, Cb.isSub] ; done) | (simp [upd_same, Ref.live, RPc.hs, RPc.ht, RPc.f, RPc.dr, RPc.overlap, Sub.counted, SPc.counted, Cb.counted, SPc.linking, Cb.linking, Cb.isSub] at hkp ⊢; grind) | (simp_all [upd_same, Ref.live, RPc.hs, RPc.ht, RPc.f, RPc.dr, RPc.overlap, Sub.counted, SPc.counted, Cb.counted, SPc.linking, Cb.linking, Cb.isSub]; done)); (simp only [upd_other _ _ hk]; first | exact hkp | grind)) | (have hkp := Inv.fin0 $h; clear $h; grind) | skip)
  case' flL => (first | exact Inv.flL $h | (have hkp := Inv.flL $h; clear $h; grind) | skip)
  case' flN => (first | exact Inv.flN $h | (have hkp := Inv.flN $h; clear $h; grind) | skip)
  case' flS => (first | exact Inv.flS $h | (intro k; have hkp := Inv.flS $h k; clear $h; by_cases hk : k = $i; (rw [hk] at hkp ⊢; first | grind | (simp [upd_same, Ref.live, RPc.hs, RPc.ht, RPc.f, RPc.dr, RPc.overlap, Sub.counted, SPc.counted, Cb.counted, SPc.linking, Cb.linking, Cb.isSub] ; done) | (simp [upd_same, Ref.live, RPc.hs, RPc.ht, RPc.f, RPc.dr, RPc.overlap, Sub.counted, SPc.counted, Cb.counted, SPc.linking, Cb.linking, Cb.isSub] at hkp ⊢; grind) | (simp_all [upd_same, Ref.live, RPc.hs, RPc.ht, RPc.f, RPc.dr, RPc.overlap, Sub.counted, SPc.counted, Cb.counted, SPc.linking, Cb.linking, Cb.isSub]; done)); (simp only [upd_other _ _ hk]; first | exact hkp | grind)) | (have hkp := Inv.flS $h; clear $h; grind) | skip)
  case' flT => (first | exact Inv.flT $h | (intro k; have hkp := Inv.flT $h k; clear $h; by_cases hk : k = $i; (rw [hk] at hkp ⊢; first | grind | (simp [upd_same, Ref.live, RPc.hs, RPc.ht, RPc.f, RPc.dr, RPc.overlap, Sub.counted, SPc.counted, Cb.counted, SPc.linking, Cb.linking, Cb.isSub] ; done) | (simp [upd_same, Ref.live, RPc.hs, RPc.ht, RPc.f, RPc.dr, RPc.overlap, Sub.counted, SPc.counted, Cb.counted, SPc.linking, Cb.linking, Cb.isSub] at hkp ⊢; grind) | (simp_all [upd_same, Ref.live, RPc.hs, RPc.ht, RPc.f, RPc.dr, RPc.overlap, Sub.counted, SPc.counted, Cb.counted, SPc.linking, Cb.linking, Cb.isSub]; done)); (simp only [upd_other _ _ hk]; first | exact hkp | grind)) | (have hkp := Inv.flT $h; clear $h; grind) | skip)
  case' flC => (first | exact Inv.flC $h | (have hkp := Inv.flC $h; clear $h; grind) | skip)
  case' clR => (first | exact Inv.clR $h | (have hkp := Inv.clR $h; clear $h; grind) | skip)
  case' clQ => (first | exact Inv.clQ $h | (have hkp := Inv.clQ $h; clear $h; grind) | skip)
  case' clS => (first | exact Inv.clS $h | (intro k; have hkp := Inv.clS $h k; clear $h; by_cases hk : k = $i; (rw [hk] at hkp ⊢; first | grind | (simp [upd_same, Ref.live, RPc.hs, RPc.ht, RPc.f, RPc.dr, RPc.overlap, Sub.counted, SPc.counted, Cb.counted, SPc.linking, Cb.linking, Cb.isSub] ; done) | (simp [upd_same, Ref.live, RPc.hs, RPc.ht, RPc.f, RPc.dr, RPc.overlap, Sub.counted, SPc.counted, Cb.counted, SPc.linking, Cb.linking, Cb.isSub] at hkp ⊢; grind) | (simp_all [upd_same, Ref.live, RPc.hs, RPc.ht, RPc.f, RPc.dr, RPc.overlap, Sub.counted, SPc.counted, Cb.counted, SPc.linking, Cb.linking, Cb.isSub]; done)); (simp only [upd_other _ _ hk]; first | exact hkp | grind)) | (have hkp := Inv.clS $h; clear $h; grind) | skip)
  case' clT => (first | exact Inv.clT $h | (intro k; have hkp := Inv.clT $h k; clear $h; by_cases hk : k = $i; (rw [hk] at hkp ⊢; first | grind | (simp [upd_same, Ref.live, RPc.hs, RPc.ht, RPc.f, RPc.dr, RPc.overlap, Sub.counted, SPc.counted, Cb.counted, SPc.linking, Cb.linking, Cb.isSub] ; done) | (simp [upd_same, Ref.live, RPc.hs, RPc.ht, RPc.f, RPc.dr, RPc.overlap, Sub.counted, SPc.counted, Cb.counted, SPc.linking, Cb.linking, Cb.isSub] at hkp ⊢; grind) | (simp_all [upd_same, Ref.live, RPc.hs, RPc.ht, RPc.f, RPc.dr, RPc.overlap, Sub.counted, SPc.counted, Cb.counted, SPc.linking, Cb.linking, Cb.isSub]; done)); (simp only [upd_other _ _ hk]; first | exact hkp | grind)) | (have hkp := Inv.clT $h; clear $h; grind) | skip)
  case' tmN => (first | exact Inv.tmN $h | (have hkp := Inv.tmN $h; clear $h; grind) | skip)
  case' tmV => (first | exact Inv.tmV $h | (intro k; have hkp := Inv.tmV $h k; clear $h; by_cases hk : k = $i; (rw [hk] at hkp ⊢; first | grind | (simp [upd_same, Ref.live, RPc.hs, RPc.ht, RPc.f, RPc.dr, RPc.overlap, Sub.counted, SPc.counted, Cb.counted, SPc.linking, Cb.linking, Cb.isSub] ; done) | (simp [upd_same, Ref.live, RPc.hs, RPc.ht, RPc.f, RPc.dr, RPc.overlap, Sub.counted, SPc.counted, Cb.counted, SPc.linking, Cb.linking, Cb.isSub] at hkp ⊢; grind) | (simp_all [upd_same, Ref.live, RPc.hs, RPc.ht, RPc.f, RPc.dr, RPc.overlap, Sub.counted, SPc.counted, Cb.counted, SPc.linking, Cb.linking, Cb.isSub]; done)); (simp only [upd_other _ _ hk]; first | exact hkp | grind)) | (have hkp := Inv.tmV $h; clear $h; grind) | skip)
  case' tmF => (first | exact Inv.tmF $h | (intro k; have hkp := Inv.tmF $h k; clear $h; by_cases hk : k = $i; (rw [hk] at hkp ⊢; first | grind | (simp [upd_same, Ref.live, RPc.hs, RPc.ht, RPc.f, RPc.dr, RPc.overlap, Sub.counted, SPc.counted, Cb.counted, SPc.linking, Cb.linking, Cb.isSub] ; done) | (simp [upd_same, Ref.live, RPc.hs, RPc.ht, RPc.f, RPc.dr, RPc.overlap, Sub.counted, SPc.counted, Cb.counted, SPc.linking, Cb.linking, Cb.isSub] at hkp ⊢; grind) | (simp_all [upd_same, Ref.live, RPc.hs, RPc.ht, RPc.f, RPc.dr, RPc.overlap, Sub.counted, SPc.counted, Cb.counted, SPc.linking, Cb.linking, Cb.isSub]; done)); (simp only [upd_other _ _ hk]; first | exact hkp | grind)) | (have hkp := Inv.tmF $h; clear $h; grind) | skip)
  case' lgV => (first | exact Inv.lgV $h | (intro k; have hkp := Inv.lgV $h k; clear $h; by_cases hk : k = $i; (rw [hk] at hkp ⊢; first | grind | (simp [upd_same, Ref.live, RPc.hs, RPc.ht, RPc.f, RPc.dr, RPc.overlap, Sub.counted, SPc.counted, Cb.counted, SPc.linking, Cb.linking, Cb.isSub] ; done) | (simp [upd_same, Ref.live, RPc.hs, RPc.ht, RPc.f, RPc.dr, RPc.overlap, Sub.counted, SPc.counted, Cb.counted, SPc.linking, Cb.linking, Cb.isSub] at hkp ⊢; grind) | (simp_all [upd_same, Ref.live, RPc.hs, RPc.ht, RPc.f, RPc.dr, RPc.overlap, Sub.counted, SPc.counted, Cb.counted, SPc.linking, Cb.linking, Cb.isSub]; done)); (simp only [upd_other _ _ hk]; first | exact hkp | grind)) | (have hkp := Inv.lgV $h; clear $h; grind) | skip)
  case' lgC => (first | exact Inv.lgC $h | (intro k; have hkp := Inv.lgC $h k; clear $h; by_cases hk : k = $i; (rw [hk] at hkp ⊢; first | grind | (simp [upd_same, Ref.live, RPc.hs, RPc.ht, RPc.f, RPc.dr, RPc.overlap, Sub.counted, SPc.counted, Cb.counted, SPc.linking, Cb.linking, Cb.isSub] ; done) | (simp [upd_same, Ref.live, RPc.hs, RPc.ht, RPc.f, RPc.dr, RPc.overlap, Sub.counted, SPc.counted, Cb.counted, SPc.linking, Cb.linking, Cb.isSub] at hkp ⊢; grind) | (simp_all [upd_same, Ref.live, RPc.hs, RPc.ht, RPc.f, RPc.dr, RPc.overlap, Sub.counted, SPc.counted, Cb.counted, SPc.linking, Cb.linking, Cb.isSub]; done)); (simp only [upd_other _ _ hk]; first | exact hkp | grind)) | (have hkp := Inv.lgC $h; clear $h; grind) | skip)
  case' tk1 => (first | exact Inv.tk1 $h | (intro k; have hkp := Inv.tk1 $h k; clear $h; by_cases hk : k = $i; (rw [hk] at hkp ⊢; first | grind | (simp [upd_same, Ref.live, RPc.hs, RPc.ht, RPc.f, RPc.dr, RPc.overlap, Sub.counted, SPc.counted, Cb.counted, SPc.linking, Cb.linking, Cb.isSub] ; done) | (simp [upd_same, Ref.live, RPc.hs, RPc.ht, RPc.f, RPc.dr, RPc.overlap, Sub.counted, SPc.counted, Cb.counted, SPc.linking, Cb.linking, Cb.isSub] at hkp ⊢; grind) | (simp_all [upd_same, Ref.live, RPc.hs, RPc.ht, RPc.f, RPc.dr, RPc.overlap, Sub.counted, SPc.counted, Cb.counted, SPc.linking, Cb.linking, Cb.isSub]; done)); (simp only [upd_other _ _ hk]; first | exact hkp | grind)) | (have hkp := Inv.tk1 $h; clear $h; grind) | skip)
  case' fSt => (first | exact Inv.fSt $h | (intro k; have hkp := Inv.fSt $h k; clear $h; by_cases hk : k = $i; (rw [hk] at hkp ⊢; first | grind | (simp [upd_same, Ref.live, RPc.hs, RPc.ht, RPc.f, RPc.dr, RPc.overlap, Sub.counted, SPc.counted, Cb.counted, SPc.linking, Cb.linking, Cb.isSub] ; done) | (simp [upd_same, Ref.live, RPc.hs, RPc.ht, RPc.f, RPc.dr, RPc.overlap, Sub.counted, SPc.counted, Cb.counted, SPc.linking, Cb.linking, Cb.isSub] at hkp ⊢; grind) | (simp_all [upd_same, Ref.live, RPc.hs, RPc.ht, RPc.f, RPc.dr, RPc.overlap, Sub.counted, SPc.counted, Cb.counted, SPc.linking, Cb.linking, Cb.isSub]; done)); (simp only [upd_other _ _ hk]; first | exact hkp | grind)) | (have hkp := Inv.fSt $h; clear $h; grind) | skip)
  case' lgS => (first | exact Inv.lgS $h | (intro k; have hkp := Inv.lgS $h k; clear $h; by_cases hk : k = $i; (rw [hk] at hkp ⊢; first | grind | (simp [upd_same, Ref.live, RPc.hs, RPc.ht, RPc.f, RPc.dr, RPc.overlap, Sub.counted, SPc.counted, Cb.counted, SPc.linking, Cb.linking, Cb.isSub] ; done) | (simp [upd_same, Ref.live, RPc.hs, RPc.ht, RPc.f, RPc.dr, RPc.overlap, Sub.counted, SPc.counted, Cb.counted, SPc.linking, Cb.linking, Cb.isSub] at hkp ⊢; grind) | (simp_all [upd_same, Ref.live, RPc.hs, RPc.ht, RPc.f, RPc.dr, RPc.overlap, Sub.counted, SPc.counted, Cb.counted, SPc.linking, Cb.linking, Cb.isSub]; done)); (simp only [upd_other _ _ hk]; first | exact hkp | grind)) | (have hkp := Inv.lgS $h; clear $h; grind) | skip)
  case' acc => (first | exact Inv.acc $h | (intro k; have hkp := Inv.acc $h k; clear $h; by_cases hk : k = $i; (rw [hk] at hkp ⊢; first | grind | (simp [upd_same, Ref.live, RPc.hs, RPc.ht, RPc.f, RPc.dr, RPc.overlap, Sub.counted, SPc.counted, Cb.counted, SPc.linking, Cb.linking, Cb.isSub] ; done) | (simp [upd_same, Ref.live, RPc.hs, RPc.ht, RPc.f, RPc.dr, RPc.overlap, Sub.counted, SPc.counted, Cb.counted, SPc.linking, Cb.linking, Cb.isSub] at hkp ⊢; grind) | (simp_all [upd_same, Ref.live, RPc.hs, RPc.ht, RPc.f, RPc.dr, RPc.overlap, Sub.counted, SPc.counted, Cb.counted, SPc.linking, Cb.linking, Cb.isSub]; done)); (simp only [upd_other _ _ hk]; first | exact hkp | grind)) | (have hkp := Inv.acc $h; clear $h; grind) | skip)
  case' accH => (first | exact Inv.accH $h | (intro k; have hkp := Inv.accH $h k; clear $h; by_cases hk : k = $i; (rw [hk] at hkp ⊢; first | grind | (simp [upd_same, Ref.live, RPc.hs, RPc.ht, RPc.f, RPc.dr, RPc.overlap, Sub.counted, SPc.counted, Cb.counted, SPc.linking, Cb.linking, Cb.isSub] ; done) | (simp [upd_same, Ref.live, RPc.hs, RPc.ht, RPc.f, RPc.dr, RPc.overlap, Sub.counted, SPc.counted, Cb.counted, SPc.linking, Cb.linking, Cb.isSub] at hkp ⊢; grind) | (simp_all [upd_same, Ref.live, RPc.hs, RPc.ht, RPc.f, RPc.dr, RPc.overlap, Sub.counted, SPc.counted, Cb.counted, SPc.linking, Cb.linking, Cb.isSub]; done)); (simp only [upd_other _ _ hk]; first | exact hkp | grind)) | (have hkp := Inv.accH $h; clear $h; grind) | skip)
  case' ord => (first | exact Inv.ord $h | (have hkp := Inv.ord $h; clear $h; grind) | skip)
  case' ordA => (first | exact Inv.ordA $h | (intro k; have hkp := Inv.ordA $h k; clear $h; by_cases hk : k = $i; (rw [hk] at hkp ⊢; first | grind | (simp [upd_same, Ref.live, RPc.hs, RPc.ht, RPc.f, RPc.dr, RPc.overlap, Sub.counted, SPc.counted, Cb.counted, SPc.linking, Cb.linking, Cb.isSub] ; done) | (simp [upd_same, Ref.live, RPc.hs, RPc.ht, RPc.f, RPc.dr, RPc.overlap, Sub.counted, SPc.counted, Cb.counted, SPc.linking, Cb.linking, Cb.isSub] at hkp ⊢; grind) | (simp_all [upd_same, Ref.live, RPc.hs, RPc.ht, RPc.f, RPc.dr, RPc.overlap, Sub.counted, SPc.counted, Cb.counted, SPc.linking, Cb.linking, Cb.isSub]; done)); (simp only [upd_other _ _ hk]; first | exact hkp | grind)) | (have hkp := Inv.ordA $h; clear $h; grind) | skip)
  case' lt1 => (first | exact Inv.lt1 $h | (intro k; have hkp := Inv.lt1 $h k; clear $h; by_cases hk : k = $i; (rw [hk] at hkp ⊢; first | grind | (simp [upd_same, Ref.live, RPc.hs, RPc.ht, RPc.f, RPc.dr, RPc.overlap, Sub.counted, SPc.counted, Cb.counted, SPc.linking, Cb.linking, Cb.isSub] ; done) | (simp [upd_same, Ref.live, RPc.hs, RPc.ht, RPc.f, RPc.dr, RPc.overlap, Sub.counted, SPc.counted, Cb.counted, SPc.linking, Cb.linking, Cb.isSub] at hkp ⊢; grind) | (simp_all [upd_same, Ref.live, RPc.hs, RPc.ht, RPc.f, RPc.dr, RPc.overlap, Sub.counted, SPc.counted, Cb.counted, SPc.linking, Cb.linking, Cb.isSub]; done)); (simp only [upd_other _ _ hk]; first | exact hkp | grind)) | (have hkp := Inv.lt1 $h; clear $h; grind) | skip)
  case' lt2 => (first | exact Inv.lt2 $h | (intro k; have hkp := Inv.lt2 $h k; clear $h; by_cases hk : k = $i; (rw [hk] at hkp ⊢; first | grind | (simp [upd_same, Ref.live, RPc.hs, RPc.ht, RPc.f, RPc.dr, RPc.overlap, Sub.counted, SPc.counted, Cb.counted, SPc.linking, Cb.linking, Cb.isSub] ; done) | (simp [upd_same, Ref.live, RPc.hs, RPc.ht, RPc.f, RPc.dr, RPc.overlap, Sub.counted, SPc.counted, Cb.counted, SPc.linking, Cb.linking, Cb.isSub] at hkp ⊢; grind) | (simp_all [upd_same, Ref.live, RPc.hs, RPc.ht, RPc.f, RPc.dr, RPc.overlap, Sub.counted, SPc.counted, Cb.counted, SPc.linking, Cb.linking, Cb.isSub]; done)); (simp only [upd_other _ _ hk]; first | exact hkp | grind)) | (have hkp := Inv.lt2 $h; clear $h; grind) | skip)
  case' lt3 => (first | exact Inv.lt3 $h | (intro k; have hkp := Inv.lt3 $h k; clear $h; by_cases hk : k = $i; (rw [hk] at hkp ⊢; first | grind | (simp [upd_same, Ref.live, RPc.hs, RPc.ht, RPc.f, RPc.dr, RPc.overlap, Sub.counted, SPc.counted, Cb.counted, SPc.linking, Cb.linking, Cb.isSub] ; done) | (simp [upd_same, Ref.live, RPc.hs, RPc.ht, RPc.f, RPc.dr, RPc.overlap, Sub.counted, SPc.counted, Cb.counted, SPc.linking, Cb.linking, Cb.isSub] at hkp ⊢; grind) | (simp_all [upd_same, Ref.live, RPc.hs, RPc.ht, RPc.f, RPc.dr, RPc.overlap, Sub.counted, SPc.counted, Cb.counted, SPc.linking, Cb.linking, Cb.isSub]; done)); (simp only [upd_other _ _ hk]; first | exact hkp | grind)) | (have hkp := Inv.lt3 $h; clear $h; grind) | skip)
  case' bd => (first | exact Inv.bd $h | (have hkp := Inv.bd $h; clear $h; grind) | skip)
  ))

attribute [grind] Ref.live RPc.hs RPc.ht RPc.f RPc.dr RPc.overlap Sub.counted SPc.counted Cb.counted SPc.linking Cb.linking Cb.isSub

theorem inv_init : Inv init := by
  constructor <;> simp [init, Ordered, Ref.live, RPc.hs, RPc.ht, RPc.f, RPc.dr, SPc.linking, Cb.linking, SPc.counted, Cb.counted, Cb.isSub]

theorem Inv.done_dead {s : St} (h : Inv s) {i : Nat} {o : Outcome} {t : Nat} (hm : Ev.done i o t ∈ s.log) :
    s.dead i = true := by
  have h1 := h.lgC i
  have h2 : 0 < s.log.countP (Ev.isDone i) := List.countP_pos_iff.2 ⟨_, hm, by simp [Ev.isDone]⟩
  cases hd : s.dead i with
  | true => rfl
  | false => rw [h1, hd] at h2; simp at h2

theorem pairwise_congr {R S : Nat → Nat → Prop} {l : List Nat} (h : l.Pairwise R)
    (hrs : ∀ a ∈ l, ∀ b ∈ l, R a b → S a b) : l.Pairwise S := by
  induction l with
  | nil => exact .nil
  | cons a l ih =>
    rw [List.pairwise_cons] at h ⊢
    exact ⟨fun b hb => hrs _ (by simp) _ (by simp [hb]) (h.1 b hb),
      ih h.2 (fun a ha b hb => hrs a (by simp [ha]) b (by simp [hb]))⟩

theorem Ordered.snoc {R : Nat → Nat → Bool} {log : List Ev} {e : Ev} (h : Ordered R log) (he : ∀ i, e ≠ .fire i) :
    Ordered R (log ++ [e]) := by
  intro pre i post j n hl
  rcases List.eq_nil_or_concat post with rfl | ⟨p, x, rfl⟩
  · have := List.append_inj_right' hl rfl
    exact absurd (by simpa using this) (he i)
  · have h2 : log ++ [e] = (pre ++ Ev.fire i :: p) ++ [x] := by simpa using hl
    exact h pre i p j n (List.append_inj_left' h2 rfl)

theorem Ordered.snoc_fire {R : Nat → Nat → Bool} {log : List Ev} {k : Nat} (h : Ordered R log)
    (he : ∀ j n, Ev.accept j n ∈ log → Ev.fire j ∉ log → Ev.cancel j ∉ log → j ≠ k → R k j = true) :
    Ordered R (log ++ [.fire k]) := by
  intro pre i post j n hl
  rcases List.eq_nil_or_concat post with rfl | ⟨p, x, rfl⟩
  · have h1 := List.append_inj_right' hl rfl
    have h2 := List.append_inj_left' hl rfl
    have : k = i := by simpa using h1
    subst this; subst h2
    exact he j n
  · have h2 : log ++ [.fire k] = (pre ++ Ev.fire i :: p) ++ [x] := by simpa using hl
    exact h pre i p j n (List.append_inj_left' h2 rfl)

@[simp, grind =] theorem overlap_hs (r : RPc) : r.overlap.hs = r.hs := by cases r <;> rfl
@[simp, grind =] theorem overlap_ht (r : RPc) : r.overlap.ht = r.ht := by cases r <;> rfl
@[simp, grind =] theorem overlap_f (r : RPc) : r.overlap.f = r.f := by cases r <;> rfl
@[simp, grind =] theorem overlap_dr (r : RPc) : r.overlap.dr = r.dr := by cases r <;> rfl
@[simp, grind =] theorem overlap_val (r : RPc) (i : Nat) : r.overlap = .val i ↔ r = .val i := by
  cases r <;> simp [RPc.overlap]
@[simp, grind =] theorem overlap_fin (r : RPc) (i : Nat) (o : Outcome) (k : Fin 4) :
    r.overlap = .fin i o k ↔ r = .fin i o k := by
  cases r <;> simp [RPc.overlap]
@[simp, grind =] theorem overlap_close (r : RPc) : r.overlap = .close ↔ r = .close := by
  cases r <;> simp [RPc.overlap]

@[simp, grind =] theorem linkCmd_fst (c : Cmd) (q : List (Cmd × Bool)) : (linkCmd c q).map Prod.fst = q.map Prod.fst := by
  simp only [linkCmd, List.map_map]
  apply List.map_congr_left
  intro e _
  simp only [Function.comp]
  split <;> simp_all

theorem mem_linkCmd {c d : Cmd} {b : Bool} {q : List (Cmd × Bool)} (h : (d, b) ∈ linkCmd c q) : d = c ∨ (d, b) ∈ q := by
  simp only [linkCmd, List.mem_map] at h
  obtain ⟨e, he, h⟩ := h
  split at h
  · left; exact (congrArg Prod.fst h).symm
  · right; rwa [← h]

set_option maxHeartbeats 4000000 in
theorem inv_env {s s' : St} (h : Inv s) (a : Act) (ha : ∀ i b, a ≠ .starter i b ∧ a ≠ .stopper i b ∧ a ≠ .run b)
    (hs : step s a = some s') : Inv s' := by
  cases a with
  | tick => simp only [step] at hs; cases hs; std h 0
  | start i d =>
    simp only [step] at hs; split at hs <;> cases hs
    rename_i hi
    have hss := h.spPre i (.inl hi)
    have hnd : s.dead i = false := by have := h.dead2 i; grind
    std h i
    case ord =>
      intro pre k post j n hl ha hf hc hne
      have h1 := h.ordA k (by simp only [] at hl; rw [hl]; simp)
      have h2 := (h.acc j n (by simp only [] at hl; rw [hl]; simp [ha])).2
      have hk : k ≠ i := by intro e; subst e; simp [hss] at h1
      have hj : j ≠ i := by intro e; subst e; simp [hss] at h2
      have := h.ord pre k post j n hl ha hf hc hne
      simpa [before, upd_other _ _ hk, upd_other _ _ hj] using this
    case lgV =>
      intro k t hm
      have hk : k ≠ i := by intro e; subst e; have := h.done_dead hm; simp [hnd] at this
      simpa [upd_other _ _ hk] using h.lgV k t hm
    case tmF =>
      intro k c hr
      have hk : k ≠ i := by
        intro e; subst e; have := (h.finR k (by simp only [] at hr; rw [hr]; rfl)).2.1; simp [hss] at this
      simpa [upd_other _ _ hk] using h.tmF k c hr
    case tmV =>
      intro k hr
      have hk : k ≠ i := by
        intro e; subst e; have := (h.heldS k).2 (by simp only [] at hr; rw [hr]; rfl); simp [hss] at this
      simpa [upd_other _ _ hk] using h.tmV k hr
    case hP =>
      refine pairwise_congr h.hP fun a ha b hb hab => ?_
      have h1 := (h.hM a).1 ha
      have h2 := (h.hM b).1 hb
      have hk : a ≠ i := by intro e; subst e; simp [hss] at h1
      have hj : b ≠ i := by intro e; subst e; simp [hss] at h2
      simpa [before, upd_other _ _ hk, upd_other _ _ hj] using hab
  | reqStop i =>
    simp only [step] at hs; split at hs <;> cases hs
    rename_i hi
    have htn : s.ts i = .none := by have := h.tk1 i; grind
    std h i
  | cbBegin i =>
    simp only [step] at hs; split at hs <;> cases hs
    std h i
  | ctxStop => simp only [step] at hs; cases hs; std h 0
  | starter i b => exact absurd rfl (ha i b).1
  | stopper i b => exact absurd rfl (ha i b).2.1
  | run b => exact absurd rfl (ha 0 b).2.2

end Verif.Timed

