import Verif.PoolSleep.Cons
/-!
# C38 — a pool worker never sleeps on work pushed to it

`Reach init step s` ranges over every number of submitters, notifiers, stoppers, thieves and remote
queues, every sequence of submissions and every interleaving.
-/
namespace Verif.PoolSleep

/-- Thread `t`, running alone, gets the sleeping worker out of its wait within three of its own steps. -/
def WillWake (s : St) (t : Nat) : Prop :=
  ∃ as : List Act, as.length ≤ 3 ∧ (∀ a ∈ as, a = .n t) ∧
    ∃ s', exec step s as = some s' ∧ s'.wpc = .woken

/-- There is no reachable state in which the worker is asleep while one of its remote queues holds a
    task and no thread is in the middle of waking it: some thread, by its own next steps alone,
    wakes it. -/
theorem C38_no_lost_wakeup (s : St) (h : Reach init step s) (hw : s.wpc = .asleep) (q : Nat)
    (hq : s.remote q ≠ []) : ∃ t, WillWake s t := by
  have hI := inv_reach s h
  have hlk : s.lockW = false := by rw [hI.lck, hw]; rfl
  have hnr := hI.run (by rw [hw]; rfl)
  have fin : ∀ t, s.npc t = .lk ∨ s.npc t = .cvn → WillWake s t := by
    intro t ht
    rcases ht with ht | ht
    · refine ⟨[.n t, .n t], by simp, by simp, ?_⟩
      simp [exec, step, nStep, ht, hlk, hw]
    · refine ⟨[.n t], by simp, by simp, ?_⟩
      simp [exec, step, nStep, ht, hw]
  have hn : s.state = .notified → ∃ t, WillWake s t := by
    intro hn
    obtain ⟨t, ht⟩ := hI.ntf (by rw [hw]; rfl) hn
    exact ⟨t, fin t (ht.imp id (·.2))⟩
  rcases hI.wrk (by rw [hw]; rfl) q hq with a | a | ⟨t, ht⟩
  · rw [hw] at a; cases a
  · exact hn a
  · by_cases hst : s.state = .sleeping
    · refine ⟨t, [.n t, .n t, .n t], by simp, by simp, ?_⟩
      simp [exec, step, nStep, ht, hst, hlk, hw]
    · exact hn (by cases e : s.state <;> simp_all)

/-- Nor while stop has been requested. -/
theorem C38_no_lost_stop (s : St) (h : Reach init step s) (hw : s.wpc = .asleep)
    (hst : s.stop = true) : ∃ t, WillWake s t := by
  obtain ⟨t, ht⟩ := (inv_reach s h).stq hw hst
  refine ⟨t, [.n t], by simp, by simp, ?_⟩
  simp [exec, step, nStep, ht, hw]

/-- When no thread is in the middle of a submission, a notification or a stop request, a sleeping
    worker has no task anywhere and stop was not requested. -/
theorem C38_quiet (s : St) (h : Reach init step s) (hw : s.wpc = .asleep)
    (hn : ∀ t, s.npc t = .idle) :
    (∀ q, s.remote q = []) ∧ s.pending = [] ∧ s.loc = [] ∧ s.stop = false := by
  have hI := inv_reach s h
  have nowake : ∀ t, ¬ WillWake s t := by
    rintro t ⟨as, _, ha, s', he, hs'⟩
    cases as with
    | nil => simp [exec] at he; subst he; rw [hw] at hs'; cases hs'
    | cons a as =>
      have := ha a (by simp); subst this
      simp [exec, step, nStep, hn t] at he
  refine ⟨fun q => ?_, hI.pem (by rw [hw]; rfl), hI.lem (by rw [hw]; rfl), ?_⟩
  · by_cases e : s.remote q = []
    · exact e
    · obtain ⟨t, ht⟩ := C38_no_lost_wakeup s h hw q e; exact absurd ht (nowake t)
  · cases e : s.stop
    · rfl
    · obtain ⟨t, ht⟩ := C38_no_lost_stop s h hw e; exact absurd ht (nowake t)

/-- A sleeping worker holds back no task: its local queue and its list of pending tasks are empty. -/
theorem C38_sleeps_empty (s : St) (h : Reach init step s) (hw : s.wpc = .asleep) :
    s.pending = [] ∧ s.loc = [] :=
  ⟨(inv_reach s h).pem (by rw [hw]; rfl), (inv_reach s h).lem (by rw [hw]; rfl)⟩

/-- Every task handed to the worker is, exactly once, waiting in a remote queue, pending, in the local
    queue, in the worker's hands, executed by the worker, or stolen by a thief. -/
theorem C38_exactly_once (s : St) (h : Reach init step s) (x : Task) : s.subm.count x =
    s.inRemote x + s.pending.count x + s.loc.count x + s.wpc.acc.count x + s.done.count x +
      s.stolen.count x :=
  cons_reach s h x

theorem afterNone_ne (m : Mode) : afterNone m ≠ .exited := by cases m <;> simp [afterNone]

/-- The worker returns from `run` only after a stop request, with nothing local left over. -/
theorem C38_exit (s : St) (h : Reach init step s) (s' : St) (a : Act) (hs : step s a = some s')
    (hw : s.wpc ≠ .exited) (he : s'.wpc = .exited) :
    s.stop = true ∧ s'.pending = [] ∧ s'.loc = [] := by
  have hI := inv_reach s h
  cases a with
  | w =>
    simp only [step, wStep] at hs
    split at hs
    case h_15 =>
      rename_i hw
      split at hs
      · cases hs
        exact ⟨by assumption, hI.pem (by rw [hw]; rfl), hI.lem (by rw [hw]; rfl)⟩
      · cases hs; cases he
    all_goals (try split at hs)
    all_goals (try split at hs)
    all_goals (first | (cases hs; done) | (cases hs; cases he; done) | (cases hs; exact absurd he (afterNone_ne _)))
  | n t =>
    simp only [step, nStep] at hs
    split at hs
    all_goals (try split at hs)
    all_goals (cases hs)
    all_goals (try exact absurd he hw)
    all_goals (cases he)
  | wAcc k =>
    simp only [step] at hs
    split at hs
    · rename_i m _ _
      split at hs
      · split at hs <;> cases hs; cases m <;> cases he
      · split at hs <;> cases hs; cases he
    · cases hs
  | steal i =>
    simp only [step] at hs
    split at hs
    · split at hs <;> cases hs; exact absurd he hw
    · cases hs
  | pushLocal x b =>
    simp only [step] at hs
    split at hs
    · split at hs
      · cases hs; exact absurd he hw
      · split at hs <;> cases hs; exact absurd he hw
    · cases hs
  | _ =>
    simp only [step] at hs
    split at hs <;> cases hs <;> first | exact absurd he hw | cases he

/-! ## The limits, by witness -/

/-- A task submitted before `request_stop` was even called may never run: the worker looked at its
    queues before the submission and at the stop flag after it. (The submitter's operation then never
    completes; `~static_thread_pool` calls `request_stop`.) -/
theorem C38_stop_drops : ∃ s, Reach init step s ∧ s.wpc = .exited ∧ s.remote 0 = [7] ∧
    (∀ t, t < 2 → s.npc t = .idle) := by
  obtain ⟨s, hr, hp⟩ := Reach.witness (init := init) (step := step)
    [.w, .w, .w, .w, .wAcc 0,          -- the worker finds nothing
     .push 0 0 7, .n 0,                -- a task is submitted; its submitter sees no sleeper
     .stop 1, .n 1, .n 1,              -- then stop is requested
     .w, .w, .w]                       -- the worker tries to steal, sees the flag and returns
    (fun s : St => decide (s.wpc = .exited ∧ s.remote 0 = [7] ∧ s.npc 0 = .idle ∧ s.npc 1 = .idle))
    (by decide)
  simp only [decide_eq_true_eq] at hp
  refine ⟨s, hr, hp.1, hp.2.1, ?_⟩
  intro t ht
  match t, ht with
  | 0, _ => exact hp.2.2.1
  | 1, _ => exact hp.2.2.2

/-! ## Non-vacuity -/

/-- The worker goes to sleep, a task arrives while it is asleep, its submitter wakes it and the worker
    runs the task. -/
example : ∃ s, Reach init step s ∧ decide (s.done = [5] ∧ s.wpc = .exec) = true :=
  Reach.witness
    [.w, .w, .w, .w, .wAcc 0, .w, .w, .w, .w, .w, .w, .w, .wAcc 0, .w,
     .push 0 0 5, .n 0, .n 0, .n 0, .w, .w, .w, .w, .w, .w, .w, .w, .wAcc 1, .w]
    (fun s : St => decide (s.done = [5] ∧ s.wpc = .exec)) (by decide)

/-- A sleeping worker with a task in a queue, whose submitter has not notified yet. -/
example : ∃ s, Reach init step s ∧ decide (s.wpc = .asleep ∧ s.remote 0 = [6, 5] ∧ s.npc 0 = .exch ∧
    s.npc 1 = .idle) = true :=
  Reach.witness
    [.w, .w, .w, .w, .wAcc 0, .w, .w, .w, .w, .w, .w, .w, .wAcc 0, .w, .push 0 0 5, .push 1 0 6]
    (fun s : St => decide (s.wpc = .asleep ∧ s.remote 0 = [6, 5] ∧ s.npc 0 = .exch ∧ s.npc 1 = .idle))
    (by decide)

end Verif.PoolSleep
