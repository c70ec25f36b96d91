import Verif.Dispatch.Inv
/-! # `bulk` on `libdispatch_queue` — C69

`shape < 2^32` (the range of the `uint32_t` counters) in the positive theorems; beyond it, and for the
submission loop, the code violates the property: see the witnesses at the end. -/
namespace Verif.Dispatch

variable {shape : Nat} {s : St}

/-- At most one completion; each index is passed to the function at most once and none outside the
    shape; no task touches the operation after completion. -/
theorem C69_safe_partial (hM : shape < M) (h : Reachable shape s) :
    s.log.countP isCompletion ≤ 1 ∧
    (∀ i, s.log.count (.call i) ≤ 1 ∧ (shape ≤ i → s.log.count (.call i) = 0)) ∧
    s.ubTask = false := by
  have hi := inv_reach hM h
  refine ⟨?_, fun i => ⟨?_, fun hle => ?_⟩, hi.noub⟩
  · rw [← ncomp_eq, hi.comp]; split <;> omega
  · rw [← ncall_eq, hi.calls i]; split <;> omega
  · have hw : s.pc i = .waiting := by
      apply hi.wait1
      have h1 := hi.lpT; have h2 := hi.lpB
      cases hl : s.lp with
      | idle => simp
      | test j => have := h1 j hl; simp; omega
      | body j => have := h2 j hl; simp; omega
      | exited => simpa
    rw [← ncall_eq, hi.calls i]; simp [hw]

/-- The only access to the completed operation is the last test of the submission loop's condition:
    if the submitting thread touched the operation after completion, every index had been submitted
    and the loop has ended. -/
theorem C69_loop_only_partial (hM : shape < M) (h : Reachable shape s) (hu : s.ubLoop = true) :
    s.lp = .exited ∧ ∀ i < shape, s.log.count (.call i) = 1 := by
  have hi := inv_reach hM h
  have hx := hi.ubl hu
  refine ⟨hx, ?_⟩
  -- the touch happened after completion, and completion never reverts
  have hal : s.ubLoop = true → s.alive = false ∧ s.pc 0 ≠ .waiting := by
    refine Reach.inv' (fun s => s.ubLoop = true → s.alive = false ∧ s.pc 0 ≠ .waiting)
      (by simp [init]) ?_ s h
    intro s a s' hr hp he hu'
    have hi' := inv_reach hM hr
    have hub := hi'.ubl
    have haw := hi'.aliveW
    cases a <;> simp only [step] at he <;> (repeat' split at he) <;> cases he <;> grind
  obtain ⟨ha, h0⟩ := hal hu
  intro i hlt
  have hfin : ¬ s.finished < shape := fun hlt => by simp [(hi.aliveNe h0).2 hlt] at ha
  have hle := cnt_le (fun a => isDone (s.pc a)) shape
  have hd := cnt_eq_iff.1 (show cnt (fun a => isDone (s.pc a)) shape = shape by
    have := hi.fin; omega) i hlt
  rw [← ncall_eq, hi.calls i]
  cases hpc : s.pc i <;> simp [hpc] at hd ⊢

/-- A value completion means every index was called exactly once and nothing was thrown; an error
    completion carries an exception that was thrown (or the predecessor's error); a stopped completion
    means the function was never called. -/
theorem C69_outcome_partial (hM : shape < M) (h : Reachable shape s) :
    (Ev.value ∈ s.log → (∀ i < shape, s.log.count (.call i) = 1) ∧ s.thrown = []) ∧
    (∀ e, Ev.error e ∈ s.log → e ∈ s.thrown) ∧
    (Ev.stopped ∈ s.log → ∀ i, s.log.count (.call i) = 0) := by
  have hi := inv_reach hM h
  refine ⟨fun hv => ⟨fun i hlt => ?_, hi.logVal hv⟩, hi.logErr, fun hst i => ?_⟩
  · have ha := hi.vAlive hv
    have h0 : s.pc 0 ≠ .waiting := by
      rcases hi.early hv with h1 | h1
      · omega
      · exact h1
    have hfin : ¬ s.finished < shape := fun hlt => by simp [(hi.aliveNe h0).2 hlt] at ha
    have hle := cnt_le (fun a => isDone (s.pc a)) shape
    have hd := cnt_eq_iff.1 (show cnt (fun a => isDone (s.pc a)) shape = shape by
      have := hi.fin; omega) i hlt
    rw [← ncall_eq, hi.calls i]
    cases hpc : s.pc i <;> simp [hpc] at hd ⊢
  · have hw : s.pc i = .waiting := by
      have h1 := hi.zero i
      have h2 := (hi.logStop hst).1
      exact Classical.byContradiction fun hc => h1 hc h2
    rw [← ncall_eq, hi.calls i]; simp [hw]

/-- No lost completion: once the predecessor has completed and nothing can move, the receiver has been
    completed exactly once — with an error if something was thrown. -/
theorem C69_completes_partial (hM : shape < M) (h : Reachable shape s)
    (hst : s.lp ≠ .idle) (hq : ∀ a, step shape s a = none) :
    s.log.countP isCompletion = 1 ∧ (s.thrown ≠ [] → ∃ e, Ev.error e ∈ s.log) := by
  have hi := inv_reach hM h
  have hlp : s.lp = .exited := by
    have := hq .loop
    cases hl : s.lp with
    | idle => exact absurd hl hst
    | test i => simp only [step, hl] at this; split at this <;> cases this
    | body i => simp [step, hl] at this
    | exited => rfl
  have hnd : ∀ a, s.pc a = .waiting ∨ s.pc a = .done := by
    intro a
    cases hpc : s.pc a with
    | waiting => simp
    | done => simp
    | ready => have := hq (.call a); simp [step, hpc] at this
    | threw e => have := hq (.cas a); simp only [step, hpc] at this; split at this <;> cases this
    | owner e => have := hq (.store a); simp [step, hpc] at this
    | fin => have := hq (.finish a); simp only [step, hpc] at this; split at this <;> cases this
  have ha : s.alive = false := by
    rcases hi.exE hlp with h1 | h1
    · by_cases hs0 : shape = 0
      · by_cases h0 : s.pc 0 = .waiting
        · subst hs0
          have := hi.wait1 0
          -- shape 0: the loop exits only through an immediate completion
          exact hi.exZero rfl hlp
        · have := hi.wait1 0 (by simp [hlp, hs0]); exact absurd this h0
      · have h0 := h1 0 (by omega)
        have hall : cnt (fun a => isDone (s.pc a)) shape = shape := by
          rw [cnt_eq_iff]
          intro i hlt
          rcases hnd i with h2 | h2
          · exact absurd h2 (h1 i hlt)
          · simp [h2]
        have h3 := hi.aliveNe h0
        have h4 := hi.fin
        cases hal : s.alive with
        | false => rfl
        | true => have := h3.1 hal; omega
    · exact h1.2
  have hc := hi.comp
  rw [ha] at hc
  simp at hc
  refine ⟨by rw [← ncomp_eq]; exact hc, fun ht => ?_⟩
  have hex : ∃ e ∈ s.log, isCompletion e = true := by
    rw [← List.countP_pos_iff, ← ncomp_eq]; omega
  obtain ⟨ev, hm, hev⟩ := hex
  cases ev with
  | call i => cases hev
  | value => exact absurd (hi.logVal hm) ht
  | error e => exact ⟨e, hm⟩
  | stopped => exact absurd (hi.stopThrown hm) ht

/-! ## Violations of the full property -/

/-- The submission loop reads the operation state after the receiver was completed (and may have
    destroyed it): shape 1, the task finishes before the loop's condition is tested again. -/
theorem C69_use_after_completion :
    ∃ s, Reachable 1 s ∧ s.ubLoop = true ∧ s.log.countP isCompletion = 1 := by
  obtain ⟨s, h1, h2⟩ := Reach.witness (init := init 1) (step := step 1)
    [.pred, .loop, .loop, .call 0, .finish 0, .loop]
    (fun s : St => decide (s.ubLoop = true ∧ s.log.countP isCompletion = 1)) (by rfl)
  simp only [decide_eq_true_eq] at h2
  exact ⟨s, h1, h2⟩

/-- A shape of `2^32 + 1` completes with a value after a single call. -/
theorem C69_truncated :
    ∃ s, Reachable (M + 1) s ∧ Ev.value ∈ s.log ∧ s.log.count (.call 1) = 0 := by
  obtain ⟨s, h1, h2⟩ := Reach.witness (init := init (M + 1)) (step := step (M + 1))
    [.pred, .loop, .loop, .call 0, .finish 0]
    (fun s : St => decide (Ev.value ∈ s.log ∧ s.log.count (.call 1) = 0)) (by rfl)
  simp only [decide_eq_true_eq] at h2
  exact ⟨s, h1, h2⟩

/-! ## Concrete executions: shape 3, the task for index 1 throws; shape 2 without exceptions. -/
example : ((exec (step 3) (init 3) [.pred, .loop, .loop, .loop, .loop, .throws 1 7, .call 0, .loop,
    .loop, .cas 1, .finish 0, .call 2, .loop, .store 1, .finish 2, .finish 1]).map
      fun s => (s.log, s.thrown, s.ubTask, s.ubLoop)) =
    some ([.error 7, .call 2, .call 0, .call 1], [7], false, false) := by rfl
example : ((exec (step 2) (init 2) [.pred, .loop, .loop, .call 0, .finish 0, .loop, .loop, .loop,
    .call 1, .finish 1]).map fun s => (s.log, s.ubTask, s.ubLoop, s.lp)) =
    some ([.value, .call 1, .call 0], false, false, .exited) := by rfl
example : (3 : Nat) < M := by decide

end Verif.Dispatch
