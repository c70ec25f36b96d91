import Verif.NvEnsure.Inv

/-! # nvexec `ensure_started` — properties (C83) -/
namespace Verif.NvEnsure

/-! ## One completion, and which -/

/-- **C83**. The receiver is completed at most once, and the operation is not used by the child's thread after that. -/
theorem C83_once {c : Cfg} {s : St} (h : Reachable c s) : s.results.length ≤ 1 ∧ s.opUaf = false :=
  ⟨(invA h).one, (invA h).opu⟩

/-- **C83**. What the receiver is completed with: a result is the child's; a CUDA error was returned by a call made by
the operation; "stopped" without the child's result needs a stop request on the receiver's token; a variant that was
not written is visited only after a failure of CUDA, or a spurious failure of the compare-exchange. -/
theorem C83_right {c : Cfg} {s : St} (h : Reachable c s) :
    (∀ o, Res.result o ∈ s.results → s.outcome = some o) ∧
    (∀ e, Res.cuda e ∈ s.results → e ∈ s.cudaErrs) ∧
    (Res.early ∈ s.results → s.parentStopped = true) ∧
    (Res.garbage ∈ s.results → s.spurious = true ∨ s.gpuFailed = true ∨ s.cudaErrs ≠ []) :=
  ⟨(invB h).res, (invB h).cuda, (invA h).early, (invB h).garb⟩

/-- **C83** (partial: unless the weak compare-exchange fails spuriously). If no CUDA call and no kernel fails and no
stop is requested, the receiver is completed with the child's result and nothing else. -/
theorem C83_value_partial {c : Cfg} {s : St} (h : Reachable c s) (hs : s.spurious = false) (hg : s.gpuFailed = false)
    (hc : s.cudaErrs = []) (hp : s.parentStopped = false) (r : Res) (hr : r ∈ s.results) :
    ∃ o, r = .result o ∧ s.outcome = some o := by
  have hb := invB h
  cases r with
  | result o => exact ⟨o, rfl, hb.res o hr⟩
  | cuda e => have := hb.cuda e hr; rw [hc] at this; cases this
  | early => have := (invA h).early hr; rw [hp] at this; cases this
  | garbage => rcases hb.garb hr with h1 | h1 | h1 <;> simp_all

/-- A child with a value, GPU copy executed late; the operation is started before the child completes. -/
example : ∃ s, Reachable ⟨true, none⟩ s ∧ s.results = [.result (.value 7)] ∧ s.spurious = false ∧ s.gpuFailed = false ∧
    s.cudaErrs = [] ∧ s.parentStopped = false ∧ s.frees = 1 ∧ s.owner = .gone := by
  obtain ⟨s, h1, h2⟩ := Reach.witness (init := init ⟨true, none⟩) (step := step ⟨true, none⟩)
    [.start, .owner none false, .owner none false, .owner none false, .owner none false, .complete (.value 7) false, .child none, .child none,
      .child none, .child none, .gpu true, .child none, .child none, .destroy false, .owner none false, .owner none false,
      .child none, .owner none false]
    (fun x : St => decide (x.results = [.result (.value 7)] ∧ x.spurious = false ∧ x.gpuFailed = false ∧
    x.cudaErrs = [] ∧ x.parentStopped = false ∧ x.frees = 1 ∧ x.owner = .gone)) (by rfl)
  simp only [decide_eq_true_eq] at h2
  exact ⟨s, h1, h2⟩

/-- **C83** violated: `start()` tries its weak compare-exchange once. When it fails spuriously, the receiver is
completed with an unwritten variant while the child is running: nothing failed, nothing was stopped. The result of the
child is lost. -/
theorem C83_violated_premature : ∃ s, Reachable ⟨true, none⟩ s ∧ s.results = [.garbage] ∧ s.outcome = none ∧
    s.gpuFailed = false ∧ s.cudaErrs = [] ∧ s.parentStopped = false := by
  obtain ⟨s, h1, h2⟩ := Reach.witness (init := init ⟨true, none⟩) (step := step ⟨true, none⟩)
    [.start, .owner none false, .owner none false, .owner none false, .owner none true, .owner none false, .owner none false,
      .owner none false]
    (fun x : St => decide (x.results = [.garbage] ∧ x.outcome = none ∧
    x.gpuFailed = false ∧ x.cudaErrs = [] ∧ x.parentStopped = false)) (by rfl)
  simp only [decide_eq_true_eq] at h2
  exact ⟨s, h1, h2⟩

/-- **C83** violated: the error of `cudaStreamWaitEvent` is stored, but not looked at: the receiver gets a value that
the GPU has not written yet, not the error. -/
theorem C83_violated_wait : ∃ s, Reachable ⟨true, none⟩ s ∧ s.results = [.garbage] ∧ s.cudaErrs = [4] ∧
    s.outcome = some (.value 7) ∧ s.spurious = false ∧ s.gpuFailed = false := by
  obtain ⟨s, h1, h2⟩ := Reach.witness (init := init ⟨true, none⟩) (step := step ⟨true, none⟩)
    [.complete (.value 7) false, .child none, .child none, .child none, .start, .owner none false, .owner none false,
      .owner (some 4) false]
    (fun x : St => decide (x.results = [.garbage] ∧ x.cudaErrs = [4] ∧
    x.outcome = some (.value 7) ∧ x.spurious = false ∧ x.gpuFailed = false)) (by rfl)
  simp only [decide_eq_true_eq] at h2
  exact ⟨s, h1, h2⟩

/-- **C83** violated: for a child that is not a stream sender, the result is written through a null pointer when the
constructor could not allocate memory: the child is started all the same (203). -/
theorem C83_violated_null : ∃ s, Reachable ⟨false, some 2⟩ s ∧ s.nullWrite = true := by
  obtain ⟨s, h1, h2⟩ := Reach.witness (init := init ⟨false, some 2⟩) (step := step ⟨false, some 2⟩)
    [.complete (.value 7) false, .child none] (fun x : St => decide (x.nullWrite = true)) (by rfl)
  simp only [decide_eq_true_eq] at h2
  exact ⟨s, h1, h2⟩

/-- **C83**. For a stream sender, or if the constructor succeeded, no result is written through a null pointer. -/
theorem C83_null_partial {c : Cfg} {s : St} (h : Reachable c s) (hc : c.stream = true ∨ c.ctor = none) :
    s.nullWrite = false := by
  cases hn : s.nullWrite with
  | false => rfl
  | true => have := (invB h).null hn; simp_all

/-! ## The shared state -/

/-- **C83**. The shared state is destroyed exactly when the child has completed and the sender or operation has given
up its reference: once, never before, and not while the GPU may write to it. -/
theorem C83_freed {c : Cfg} {s : St} (h : Reachable c s) :
    s.frees = (if s.child = .done ∧ (s.owner = .dcb ∨ s.owner = .gone) then 1 else 0) ∧ s.badFree = false := by
  have hi := invA h
  refine ⟨?_, hi.bad⟩
  rw [hi.frees]
  have h1 := hi.cref
  have h2 := hi.oref
  grind [St.freed]

/-- **C83** (partial: unless the child completes inside the stop callback, or the operation is completed by `start()`
because of a stop request). The shared state is not used after it was destroyed. -/
theorem C83_safe_partial {c : Cfg} {s : St} (h : Reachable c s) (h1 : s.nested = false) (h2 : Res.early ∉ s.results) :
    s.uaf = false :=
  (invD h).uaf h1 h2

/-- A stop request that reaches the child, which completes afterwards. -/
example : ∃ s, Reachable ⟨true, none⟩ s ∧ s.nested = false ∧ s.cb = .fin ∧ s.srcStopped = true ∧
    s.results = [.result .stopped] ∧ s.frees = 1 := by
  obtain ⟨s, h1, h2⟩ := Reach.witness (init := init ⟨true, none⟩) (step := step ⟨true, none⟩)
    [.start, .owner none false, .owner none false, .owner none false, .owner none false, .parentStop, .cb,
      .complete .stopped false, .child none, .child none, .child none, .cb, .child none, .gpu true, .child none,
      .child none, .destroy false, .owner none false, .owner none false, .child none]
    (fun x : St => decide (x.nested = false ∧ x.cb = .fin ∧ x.srcStopped = true ∧ x.results = [.result .stopped] ∧
      x.frees = 1)) (by rfl)
  simp only [decide_eq_true_eq] at h2
  exact ⟨s, h1, h2⟩

/-- **C83** violated: the child completes inside the stop callback; the receiver destroys the operation, and with it
goes the stop source whose `request_stop()` is running. -/
theorem C83_violated_inline : ∃ s, Reachable ⟨true, none⟩ s ∧ s.uaf = true ∧ s.spurious = false ∧ s.cudaErrs = [] ∧
    s.gpuFailed = false ∧ s.results = [.result .stopped] := by
  obtain ⟨s, h1, h2⟩ := Reach.witness (init := init ⟨true, none⟩) (step := step ⟨true, none⟩)
    [.start, .owner none false, .owner none false, .owner none false, .owner none false, .parentStop, .cb,
      .complete .stopped true, .child none, .child none, .child none, .child none, .gpu true, .child none,
      .child none, .destroy false, .owner none false, .owner none false, .child none, .cb]
    (fun x : St => decide (x.uaf = true ∧ x.spurious = false ∧ x.cudaErrs = [] ∧
    x.gpuFailed = false ∧ x.results = [.result .stopped])) (by rfl)
  simp only [decide_eq_true_eq] at h2
  exact ⟨s, h1, h2⟩

/-- **C83** violated: `start()` finds that stop has been requested by a callback that still runs on another thread, and
completes the receiver without waiting for it; the operation's destructor releases the shared state before it destroys
the callback. -/
theorem C83_violated_race : ∃ s, Reachable ⟨true, none⟩ s ∧ s.uaf = true ∧ s.nested = false ∧ s.spurious = false ∧
    s.cudaErrs = [] ∧ s.gpuFailed = false := by
  obtain ⟨s, h1, h2⟩ := Reach.witness (init := init ⟨true, none⟩) (step := step ⟨true, none⟩)
    [.start, .owner none false, .owner none false, .parentStop, .cb, .owner none false, .complete .stopped false,
      .child none, .child none, .child none, .gpu true, .child none, .destroy false, .owner none false,
      .owner none false, .cb]
    (fun x : St => decide (x.uaf = true ∧ x.nested = false ∧ x.spurious = false ∧
    x.cudaErrs = [] ∧ x.gpuFailed = false)) (by rfl)
  simp only [decide_eq_true_eq] at h2
  exact ⟨s, h1, h2⟩

/-- **C83**. A sender or an operation that is destroyed without having been started leaves a child that has completed,
or was asked to stop. -/
theorem C83_detach {c : Cfg} {s : St} (h : Reachable c s) (hg : s.owner = .gone) (hr : s.results = []) :
    s.srcStopped = true ∨ s.outcome ≠ none := by
  have hi := invA h
  rcases hi.gone (.inr (.inr hg)) hr with h1 | h1
  · exact .inl h1
  · right
    intro h2
    rw [hi.out] at h2
    rw [hi.cell, h2] at h1
    cases h1

/-- An operation dropped while the child is running. -/
example : ∃ s, Reachable ⟨false, none⟩ s ∧ s.owner = .gone ∧ s.results = [] ∧ s.outcome = none ∧ s.srcStopped = true := by
  obtain ⟨s, h1, h2⟩ := Reach.witness (init := init ⟨false, none⟩) (step := step ⟨false, none⟩)
    [.destroy false, .owner none false, .owner none false, .owner none false, .owner none false]
    (fun x : St => decide (x.owner = .gone ∧ x.results = [] ∧ x.outcome = none ∧ x.srcStopped = true)) (by rfl)
  simp only [decide_eq_true_eq] at h2
  exact ⟨s, h1, h2⟩

/-! ## Progress -/

/-- Steps that the operation makes by itself: not the child's completion, the calls of the owner, or a stop request. -/
def internal : Act → Bool
  | .child _ | .owner _ _ | .cb | .gpu _ => true
  | _ => false

/-- **C83**. Nothing waits forever: in every state in which something is under way, a step is possible. -/
theorem C83_never_stuck {c : Cfg} {s : St} (h : Reachable c s)
    (hw : (s.child ≠ .run ∧ s.child ≠ .done) ∨ (s.owner ≠ .fresh ∧ s.owner ≠ .started ∧ s.owner ≠ .gone)) :
    ∃ a, internal a = true ∧ (step c s a).isSome = true := by
  have hd := invD h
  apply Classical.byContradiction
  intro hno
  have hno : ∀ a, internal a = true → (step c s a).isSome = false := by
    intro a ha
    cases hs : (step c s a).isSome with
    | false => rfl
    | true => exact absurd ⟨a, ha, hs⟩ hno
  have hg : s.gpu.busy = false := by
    cases hg : s.gpu with
    | queued v => have := hno (.gpu true) rfl; simp [step, hg] at this
    | _ => rfl
  have hch := hno (.child none) rfl
  have hcb := hno .cb rfl
  have how := hno (.owner none false) rfl
  have hcd : s.child = .run ∨ s.child = .done ∨ (s.child = .reset ∧ s.cb.busy = true ∧ s.nested = false) := by
    simp only [step, stepChild, St.destroy] at hch
    cases hp : s.child <;> simp only [hp] at hch <;> (repeat' split at hch) <;> simp_all [St.touch, St.touchOp]
  have hcbb : s.cb.busy = false := by
    cases hp : s.cb with
    | enter => simp [step, hp] at hcb
    | inside =>
      simp only [step, hp] at hcb
      split at hcb
      · rename_i h1
        rcases hcd with h2 | h2 | h2
        · exact absurd h2 (hd.nest h1.1)
        · exact absurd h2 h1.2
        · simp_all
      · simp at hcb
    | _ => rfl
  have hcd' : s.child = .run ∨ s.child = .done := by
    rcases hcd with h1 | h1 | h1
    · exact .inl h1
    · exact .inr h1
    · rw [hcbb] at h1; simp at h1
  have hinl : s.owner = .inl → s.cb = .off := by
    intro h1
    simp only [step, stepOwner, h1] at how
    cases hp : s.cb <;> simp_all [Cb.busy]
  have hw' : s.owner ≠ .fresh ∧ s.owner ≠ .started ∧ s.owner ≠ .gone := by
    rcases hw with h1 | h1
    · rcases hcd' with h2 | h2 <;> simp_all
    · exact h1
  have hI : s.owner = .inl → s.cb ≠ .off := by
    have : ∀ s, Reachable c s → (s.owner = .inl → s.cb ≠ .off) := by
      refine Reach.inv _ (by simp [init]) ?_
      intro s a s' hi he
      cases a <;> simp only [step, stepChild, stepOwner, St.destroy] at he <;> (repeat' split at he) <;>
        first
        | (simp at he; done)
        | (simp only [Option.some.injEq] at he; subst he
           grind [St.touch, St.touchOp, St.note])
    exact this s h
  simp only [step, stepOwner, St.destroy] at how
  cases hp : s.owner <;> simp only [hp] at how <;> (repeat' split at how) <;> simp_all [St.touch]

/-- Steps left. -/
def left (s : St) : Nat :=
  (match s.child with
    | .run => 18 | .result _ => 16 | .record => 14 | .xchg => 12 | .reset => 10 | .wait => 8 | .deliver => 6
    | .release => 4 | .done => 0) +
  (match s.owner with
    | .fresh => 14 | .load => 13 | .emplace => 12 | .inl => 11 | .check => 10 | .cas => 9 | .reset => 8 | .wait => 7
    | .deliver => 6 | .started => 5 | .dload => 4 | .detach => 3 | .release => 2 | .dcb => 1 | .gone => 0) +
  (match s.cb with
    | .off => 3 | .enter => 2 | .inside => 1 | .fin => 0) +
  (match s.gpu with
    | .queued _ => 1 | _ => 0) +
  (if s.parentStopped then 0 else 1)

set_option maxHeartbeats 4000000 in
theorem left_lt {c : Cfg} {s s' : St} {a : Act} (hA : InvA c s) (hd : InvD c s) (he : step c s a = some s') :
    left s' < left s := by
  have h1 := hd.reg
  have h2 := hd.off
  cases a <;> simp only [step, stepChild, stepOwner, St.destroy] at he <;> (repeat' split at he) <;>
    first
    | (simp at he; done)
    | (simp only [Option.some.injEq] at he; subst he
       simp_all [left, St.touch, St.touchOp, St.note]; done)
    | (simp only [Option.some.injEq] at he; subst he
       simp_all [left, St.touch, St.touchOp, St.note]; omega)
    | (simp only [Option.some.injEq] at he; subst he
       simp_all [left, St.touch, St.touchOp, St.note]; grind)
    | skip

/-- **C83**. Every execution ends: it has at most 36 steps, everything included. -/
theorem C83_bounded {c : Cfg} {s : St} (as : List Act) (he : exec (step c) (init c) as = some s) : as.length ≤ 36 := by
  have := run_bound (step := step c) (fun _ => true) (fun s => InvA c s ∧ InvD c s) left
    (fun s a s' hi _ he => ⟨⟨invA_step c s a s' hi.1 he, invD_step c s a s' hi.1 hi.2 he⟩, left_lt hi.1 hi.2 he⟩)
    as (init c) s ⟨invA_init c, invD_init c⟩ (fun _ _ => rfl) he
  simpa [left, init] using this

/-- **C83**. When everything has come to rest after the child completed, an operation that was started has been
completed exactly once, and if it or the sender was destroyed, the shared state is gone. -/
theorem C83_end {c : Cfg} {s : St} (h : Reachable c s) (hq : ∀ a, internal a = true → step c s a = none)
    (ho : s.outcome ≠ none) :
    s.child = .done ∧
    ((s.owner = .started ∧ s.results.length = 1) ∨ s.owner = .fresh ∨ (s.owner = .gone ∧ s.frees = 1)) := by
  have hi := invA h
  have hrest : ¬((s.child ≠ .run ∧ s.child ≠ .done) ∨ (s.owner ≠ .fresh ∧ s.owner ≠ .started ∧ s.owner ≠ .gone)) := by
    intro hw
    obtain ⟨a, ha, hs⟩ := C83_never_stuck h hw
    rw [hq a ha] at hs; cases hs
  have hrun : s.child ≠ .run := fun h1 => ho (hi.out.2 h1)
  have hdone : s.child = .done := by
    cases hp : s.child <;> simp_all
  refine ⟨hdone, ?_⟩
  have hfree := (C83_freed h).1
  have h1 := hi.one
  have h2 := hi.started
  have h3 := hi.cell
  cases hp : s.owner <;> simp_all [Child.past, Child.telling]
  cases hr : s.results with
  | nil => simp_all
  | cons a l => rw [hr] at h1; simp at h1 ⊢; exact h1

end Verif.NvEnsure
