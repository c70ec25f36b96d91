import Verif.NvEnsure.Model

/-! # nvexec `ensure_started` — invariants (C83) -/
namespace Verif.NvEnsure

/-- The owner has not completed `start()`, or has not called it. -/
def Owner.pre : Owner → Bool
  | .fresh | .load | .emplace | .inl | .check | .cas | .reset | .wait | .deliver => true
  | _ => false

/-- The owner's destructor runs, or has run. -/
def Owner.dying : Owner → Bool
  | .dload | .detach | .release | .dcb | .gone => true
  | _ => false

/-- The child has passed the exchange of `notify`. -/
def Child.past : Child → Bool
  | .reset | .wait | .deliver | .release | .done => true
  | _ => false

/-- The child completes the operation. -/
def Child.telling : Child → Bool
  | .reset | .wait | .deliver => true
  | _ => false

structure InvA (c : Cfg) (s : St) : Prop where
  cref : s.childRef = true ↔ s.child ≠ .done
  oref : s.ownerRef = true ↔ (s.owner ≠ .dcb ∧ s.owner ≠ .gone)
  frees : s.frees = if s.freed then 1 else 0
  cell : s.cell = .completed ↔ s.child.past = true
  op : s.cell = .op → s.owner = .started ∧ s.results = []
  tell : s.child.telling = true → s.owner = .started ∧ s.results = []
  pre : s.owner.pre = true → s.results = []
  started : s.owner = .started → s.results = [] → s.cell = .op ∨ s.child.telling = true
  one : s.results.length ≤ 1
  busy : s.gpu.busy = true → s.copied = true
  bad : s.badFree = false
  opu : s.opUaf = false
  out : s.outcome = none ↔ s.child = .run
  stop : s.srcStopped = true → s.parentStopped = true ∨ s.owner = .release ∨ s.owner = .dcb ∨ s.owner = .gone
  cbp : s.cb ≠ .off → s.parentStopped = true
  early : Res.early ∈ s.results → s.parentStopped = true
  gone : s.owner = .release ∨ s.owner = .dcb ∨ s.owner = .gone → s.results = [] →
    s.srcStopped = true ∨ s.cell = .completed

theorem answer_ne (s : St) (l : Option Nat) : s.answer l ≠ .early := by
  unfold St.answer; cases l <;> simp; cases s.mem <;> simp

theorem invA_init (c : Cfg) : InvA c (init c) := by
  constructor <;> simp [init, Owner.pre, Child.past, Child.telling, Gpu.busy, St.freed]

set_option maxHeartbeats 8000000 in
theorem invA_step (c : Cfg) (s : St) (a : Act) (s' : St) (h : InvA c s) (he : step c s a = some s') : InvA c s' := by
  obtain ⟨cref, oref, frees, cell, op, tell, pre, started, one, busy, bad, opu, out, stop, cbp, early, gone⟩ := h
  cases a <;> simp only [step, stepChild, stepOwner, St.destroy] at he <;> (repeat' split at he) <;>
    first
    | (simp at he; done)
    | (simp only [Option.some.injEq] at he; subst he
       constructor <;>
        first
        | assumption
        | grind [St.touch, St.touchOp, St.note, St.freed, Owner.pre, Child.past, Child.telling, Gpu.busy, Cb.busy, St.answer]
        | (have := answer_ne s none; have := answer_ne s s.status
           grind [St.touch, St.touchOp, St.note])
        | (cases hc : s.cell <;> grind [St.touch, St.touchOp, St.note])
        | skip)

theorem invA {c : Cfg} {s : St} (h : Reachable c s) : InvA c s :=
  Reach.inv (InvA c) (invA_init c) (invA_step c) s h

/-- Results and CUDA errors. -/
structure InvB (c : Cfg) (s : St) : Prop where
  note : ∀ e, s.status = some e → e ∈ s.cudaErrs
  keep : c.ctor ≠ none → s.status ≠ none
  queued : ∀ o, s.gpu = .queued o → s.outcome = some o
  mem : ∀ o, s.mem = some o → s.outcome = some o
  ran : s.gpu = .ran → s.mem ≠ none
  failed : s.gpu = .failed → s.gpuFailed = true
  host : c.stream = false → (s.child = .xchg ∨ s.child.past = true) → s.mem ≠ none
  res0 : ∀ o, s.child = .result o → s.outcome = some o
  rec0 : s.child = .record → c.stream = true ∧ s.gpu ≠ .none
  rec1 : c.stream = true → s.status = none → (s.child = .xchg ∨ s.child.past = true) → s.recorded = true ∧ s.gpu ≠ .none
  own : s.owner = .reset ∨ s.owner = .wait ∨ s.owner = .deliver → s.spurious = true ∨ s.cell = .completed
  cdel : s.child = .deliver → s.status = none → s.mem ≠ none ∨ s.gpuFailed = true
  odel : s.owner = .deliver → s.status = none → s.mem ≠ none ∨ s.gpuFailed = true ∨ s.spurious = true
  res : ∀ o, Res.result o ∈ s.results → s.outcome = some o
  cuda : ∀ e, Res.cuda e ∈ s.results → e ∈ s.cudaErrs
  garb : Res.garbage ∈ s.results → s.spurious = true ∨ s.gpuFailed = true ∨ s.cudaErrs ≠ []
  null : s.nullWrite = true → c.stream = false ∧ c.ctor ≠ none

theorem invB_init (c : Cfg) : InvB c (init c) := by
  constructor <;> simp [init, Child.past]

theorem answer_result {s : St} {l : Option Nat} {o : Outcome} (h : s.answer l = .result o) : s.mem = some o := by
  unfold St.answer at h; cases l <;> simp at h; cases hm : s.mem <;> simp_all

theorem answer_cuda {s : St} {l : Option Nat} {e : Nat} (h : s.answer l = .cuda e) : l = some e := by
  unfold St.answer at h; cases l <;> simp at h; · cases hm : s.mem <;> simp_all
  · simp [h]

theorem answer_garbage {s : St} {l : Option Nat} (h : s.answer l = .garbage) : l = none ∧ s.mem = none := by
  unfold St.answer at h; cases l <;> simp at h; cases hm : s.mem <;> simp_all

set_option maxHeartbeats 8000000 in
theorem invB_step (c : Cfg) (s : St) (a : Act) (s' : St) (hA : InvA c s) (h : InvB c s) (he : step c s a = some s') :
    InvB c s' := by
  have hcell := hA.cell
  have hop := hA.op
  have hout := hA.out
  obtain ⟨note, keep, queued, mem, ran, failed, host, res0, rec0, rec', own, cdel, odel, res, cuda, garb, null⟩ := h
  cases a <;> simp only [step, stepChild, stepOwner, St.destroy] at he <;> (repeat' split at he) <;>
    first
    | (simp at he; done)
    | (simp only [Option.some.injEq] at he; subst he
       constructor <;>
        first
        | assumption
        | grind [St.touch, St.touchOp, St.note, Child.past, Gpu.busy, Cb.busy, answer_result, answer_cuda, answer_garbage]
        | (cases hc : s.cell <;> grind [St.touch, St.touchOp, St.note, Child.past])
        | (cases hg : s.gpu <;>
           grind [St.touch, St.touchOp, St.note, Child.past, Gpu.busy, Cb.busy, answer_result, answer_cuda, answer_garbage])
        | skip)

theorem invB {c : Cfg} {s : St} (h : Reachable c s) : InvB c s := by
  have : InvA c s ∧ InvB c s :=
    Reach.inv (fun s => InvA c s ∧ InvB c s) ⟨invA_init c, invB_init c⟩
      (fun s a s' hi he => ⟨invA_step c s a s' hi.1 he, invB_step c s a s' hi.1 hi.2 he⟩) s h
  exact this.2

/-- The stop callback. -/
structure InvD (c : Cfg) (s : St) : Prop where
  off : s.owner = .fresh ∨ s.owner = .load ∨ s.owner = .emplace → s.cb = .off ∧ s.reg = false
  reg : s.reg = true → s.cb = .off
  drop : s.owner.dying = true → s.results ≠ [] ∨ (s.cb = .off ∧ s.reg = false)
  told : s.child = .wait ∨ s.child = .deliver → s.reg = false ∧ (s.cb.busy = true → s.nested = true)
  told' : s.owner = .wait ∨ s.owner = .deliver → s.reg = false ∧ s.cb.busy = false
  fin : s.results ≠ [] → Res.early ∈ s.results ∨ (s.reg = false ∧ (s.cb.busy = true → s.nested = true))
  nest : s.nested = true → s.child ≠ .run
  uaf : s.nested = false → Res.early ∉ s.results → s.uaf = false

theorem invD_init (c : Cfg) : InvD c (init c) := by
  constructor <;> simp [init, Owner.dying]

set_option maxHeartbeats 8000000 in
theorem invD_step (c : Cfg) (s : St) (a : Act) (s' : St) (hA : InvA c s) (h : InvD c s) (he : step c s a = some s') :
    InvD c s' := by
  have cref := hA.cref
  have oref := hA.oref
  have tell := hA.tell
  have pre := hA.pre
  have started := hA.started
  obtain ⟨off, reg, drop, told, told', fin, nest, uaf⟩ := h
  cases a <;> simp only [step, stepChild, stepOwner, St.destroy] at he <;> (repeat' split at he) <;>
    first
    | (simp at he; done)
    | (simp only [Option.some.injEq] at he; subst he
       constructor <;>
        first
        | assumption
        | grind [St.touch, St.touchOp, St.note, St.freed, Owner.pre, Owner.dying, Child.telling, Cb.busy]
        | (cases ho : s.owner <;>
           grind [St.touch, St.touchOp, St.note, St.freed, Owner.pre, Owner.dying, Child.telling, Cb.busy])
        | skip)

theorem invD {c : Cfg} {s : St} (h : Reachable c s) : InvD c s := by
  have : InvA c s ∧ InvD c s :=
    Reach.inv (fun s => InvA c s ∧ InvD c s) ⟨invA_init c, invD_init c⟩
      (fun s a s' hi he => ⟨invA_step c s a s' hi.1 he, invD_step c s a s' hi.1 hi.2 he⟩) s h
  exact this.2

end Verif.NvEnsure
