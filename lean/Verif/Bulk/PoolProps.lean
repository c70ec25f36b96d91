import Verif.Bulk.PoolLemmas
/-! # `bulk` on `static_thread_pool` — C37

`shape` and the parallelism `par ≥ 1` are arbitrary; `agents parallelize shape par` is the number of
bulk tasks. All theorems hold for every reachable state of every interleaving. -/
namespace Verif.Bulk

theorem agents_pos {p : Bool} {shape par : Nat} (hp : 0 < par) (h : shape ≠ 0) :
    0 < agents p shape par := by
  unfold agents; split <;> omega

variable {p : Bool} {shape par : Nat} {s : St}

/-- The receiver is completed at most once. -/
theorem C37_completes_at_most_once (hp : 0 < par)
    (h : Reachable shape (agents p shape par) s) : s.log.countP isCompletion ≤ 1 := by
  have := (inv_reach (agents_pos hp) h).comp
  rw [← ncomp_eq, this]; split <;> omega

/-- Each index is passed to the user function at most once, and no index outside the shape is. -/
theorem C37_each_index_at_most_once (hp : 0 < par)
    (h : Reachable shape (agents p shape par) s) (i : Nat) :
    s.log.count (.call i) ≤ 1 ∧ (shape ≤ i → s.log.count (.call i) = 0) := by
  have hi := inv_reach (agents_pos hp) h
  have hout : shape ≤ i → s.log.count (.call i) = 0 := by
    intro hle
    rw [List.count_eq_zero]
    intro hm; have := hi.range i hm; omega
  refine ⟨?_, hout⟩
  by_cases hlt : i < shape
  · obtain ⟨a, ha, h1, h2⟩ := share_exists shape (agents p shape par) i
      (agents_pos hp (by omega)) hlt
    rw [← ncall_eq, hi.calls a ha i h1 h2]; split <;> omega
  · rw [hout (by omega)]; omega

theorem done_of_not_alive {total : Nat} (hi : Inv shape total s) (h0 : shape ≠ 0)
    (hc : s.alive = false) {a : Nat} (ha : a < total) : ∃ i, s.pc a = .done i := by
  have h1 := hi.aliveEq h0
  have h2 := cnt_le (fun a => isDone (s.pc a)) total
  have h3 := hi.fin
  have h4 : ¬ s.finished < total := fun hlt => by simp [h1.2 hlt] at hc
  have h5 := cnt_eq_iff.1 (show cnt (fun a => isDone (s.pc a)) total = total by omega) a ha
  cases hpc : s.pc a <;> simp [hpc] at h5
  exact ⟨_, rfl⟩

/-- When the receiver has been completed with a value, every index of the shape has been called
    exactly once, all calls have returned (every agent is done) and nothing was thrown. -/
theorem C37_value_means_all_done (hp : 0 < par)
    (h : Reachable shape (agents p shape par) s) (hv : Ev.value ∈ s.log) :
    (∀ i < shape, s.log.count (.call i) = 1) ∧ s.thrown = [] ∧
    (shape ≠ 0 → ∀ a < agents p shape par, ∃ i, s.pc a = .done i) := by
  have hi := inv_reach (agents_pos hp) h
  have ht := hi.logVal hv
  have hal : s.alive = false := by
    have hc := hi.comp
    have : 0 < s.log.countP isCompletion := List.countP_pos_iff.2 ⟨_, hv, rfl⟩
    rw [← ncomp_eq, hc] at this
    by_contra hb
    simp at hb
    simp [hb] at this
  have hown : s.owner = none := by
    by_contra hb; exact hi.ownerThrown hb ht
  refine ⟨?_, ht, fun h0 a ha => done_of_not_alive hi h0 hal ha⟩
  intro i hlt
  obtain ⟨a, ha, h1, h2⟩ := share_exists shape (agents p shape par) i
    (agents_pos hp (by omega)) hlt
  obtain ⟨j, hj⟩ := done_of_not_alive hi (by omega) hal ha
  rw [← ncall_eq, hi.calls a ha i h1 h2, hj]
  rcases hi.finOk a j (Or.inr hj) with h3 | h3
  · rw [h3]; exact if_pos h2
  · exact absurd hown h3

/-- When the receiver has been completed with an error, that error was thrown by the user function,
    and every agent is done: no call is in progress. -/
theorem C37_error_was_thrown (hp : 0 < par)
    (h : Reachable shape (agents p shape par) s) (e : Exc) (hv : Ev.error e ∈ s.log) :
    e ∈ s.thrown ∧ ∀ a < agents p shape par, ∃ i, s.pc a = .done i := by
  have hi := inv_reach (agents_pos hp) h
  have ht := hi.logErr e hv
  have h0 : shape ≠ 0 := by
    intro h0; have := (hi.zero h0).2.1; rw [this] at ht; cases ht
  refine ⟨ht, ?_⟩
  have hal : s.alive = false := by
    have hc := hi.comp
    have : 0 < s.log.countP isCompletion := List.countP_pos_iff.2 ⟨_, hv, rfl⟩
    rw [← ncomp_eq, hc] at this
    by_contra hb
    simp at hb
    simp [hb] at this
  exact fun a ha => done_of_not_alive hi h0 hal ha

/-- The operation state is never used after the receiver was completed. -/
theorem C37_no_use_after_completion (hp : 0 < par)
    (h : Reachable shape (agents p shape par) s) : s.ub = false :=
  (inv_reach (agents_pos hp) h).noub

/-- No lost completion: in a state where the predecessor has completed and nothing can move any more
    (all tasks enqueued, no agent has a step left), the receiver has been completed exactly once —
    with a value if nothing was thrown, with an error otherwise. -/
theorem C37_completes (hp : 0 < par) (h : Reachable shape (agents p shape par) s)
    (hst : s.started = true)
    (hq : ∀ a, step shape (agents p shape par) s a = none) :
    s.log.countP isCompletion = 1 ∧ (s.thrown = [] → Ev.value ∈ s.log) ∧
      (s.thrown ≠ [] → ∃ e, Ev.error e ∈ s.log) := by
  have hi := inv_reach (agents_pos hp) h
  have hal : s.alive = false := by
    by_contra hb
    have hb : s.alive = true := by simpa using hb
    by_cases h0 : shape = 0
    · have := (hi.zero h0).2.2.1.1 hb; simp [hst] at this
    · have henq : s.enq = agents p shape par := by
        have h1 := hq .enqueue
        have h2 := hi.enqLe
        simp only [step, hst] at h1
        split at h1
        · cases h1
        · rename_i hn; simp at hn; omega
      have hlt := (hi.aliveEq h0).1 hb
      have : ∃ a < agents p shape par, isDone (s.pc a) = false := by
        by_contra hall
        have : cnt (fun a => isDone (s.pc a)) (agents p shape par) = agents p shape par := by
          rw [cnt_eq_iff]
          intro i hi'
          by_contra hx
          exact hall ⟨i, hi', by simpa using hx⟩
        have := hi.fin; omega
      obtain ⟨a, ha, hd⟩ := this
      -- every non-done agent has a step
      cases hpc : s.pc a with
      | waiting =>
        exact (by
          have key : s.pc a ≠ .waiting := by
            -- enqueued agents are never waiting
            exact not_waiting h a (by omega) h0
          exact key hpc)
      | ready => have := hq (.start a); simp [step, hpc] at this
      | run i =>
        have := hq (.call a); simp only [step, hpc] at this; split at this <;> cases this
      | threw i e =>
        have := hq (.cas a); simp only [step, hpc] at this; split at this <;> cases this
      | owner i e => have := hq (.store a); simp [step, hpc] at this
      | fin i =>
        have := hq (.finish a); simp only [step, hpc] at this; split at this <;> cases this
      | done i => simp [hpc] at hd
  have hc := hi.comp
  rw [hal] at hc
  rw [← ncomp_eq]
  have hex : ∃ e ∈ s.log, isCompletion e = true := by
    rw [← List.countP_pos_iff, ← ncomp_eq]; simp at hc; omega
  obtain ⟨ev, hm, hev⟩ := hex
  refine ⟨by simpa using hc, ?_, ?_⟩
  · intro ht
    cases ev with
    | call i => cases hev
    | value => exact hm
    | error e => have := hi.logErr e hm; rw [ht] at this; cases this
  · intro ht
    cases ev with
    | call i => cases hev
    | value => exact absurd (hi.logVal hm) ht
    | error e => exact ⟨e, hm⟩

/-! ## Concrete executions meeting the hypotheses: shape 5 on 2 agents, agent 0 throws at index 1. -/
def demo : List Act :=
  [.pred, .enqueue, .start 0, .call 0, .enqueue, .throws 0 42, .start 1, .call 1, .call 1, .cas 0,
   .call 1, .store 0, .finish 0, .finish 1]

example : agents true 5 2 = 2 := by decide
example : ((exec (step 5 2) init demo).map fun s => (s.log, s.thrown, s.ub)) =
    some ([.error 42, .call 4, .call 3, .call 1, .call 0], [42], false) := by rfl

def demo2 : List Act :=
  [.pred, .enqueue, .start 0, .call 0, .call 0, .enqueue, .start 1, .call 1, .call 0, .call 0,
   .finish 0, .call 1, .call 1, .finish 1]
example : ((exec (step 5 2) init demo2).map fun s => (s.log, s.ub)) =
    some ([.value, .call 4, .call 2, .call 3, .call 1, .call 0], false) := by rfl

end Verif.Bulk
