import Verif.Pool.Inv
/-!
# C51: `static_thread_pool` executes every task exactly once

Vocabulary: `s.submitted` lists what was handed to the pool, as pairs (worker, task); `s.log` lists the executions as
triples (executing worker, `tid` argument, task); `waiting` counts what is in a queue.
-/
namespace Verif.Pool
open Verif.PoolSleep (Task)

/-- Copies of `x` in the queues of a worker: remote queues, collected from them, pending, local. -/
def waiting (w : PoolSleep.St) (x : Task) : Nat :=
  w.inRemote x + w.pending.count x + w.loc.count x + w.wpc.acc.count x

/-- **C51, exactly once.** At every moment, every task submitted to worker `i` is either still in `i`'s queues or has been
    executed, once per submission, by `i` or by a thief; and whoever executes it passes `i` as `tid`. -/
theorem C51_exactly_once {N : Nat} {s : St} (h : Reachable N s) (i : Nat) (x : Task) :
    s.submitted.count (i, x) = execs i x s.log + waiting (s.w i) x := by
  have hi := inv_reach h
  have h1 := PoolSleep.C38_exactly_once (s.w i) (hi.wr i) x
  have h2 := hi.sub i x; have h3 := hi.ex i x
  unfold waiting; omega

/-- **C51, never twice.** No task is executed more often than it was submitted, and never with a foreign `tid`. -/
theorem C51_at_most_once {N : Nat} {s : St} (h : Reachable N s) (i : Nat) (x : Task) :
    execs i x s.log ≤ s.submitted.count (i, x) := by have := C51_exactly_once h i x; omega

/-- Steps the pool makes by itself: the workers' own steps, tasks returning, stealing. No submission, no stop request. -/
def Act.isWork : Act → Bool
  | .on _ a => a.isWork
  | .thief _ _ _ => true
  | .reg _ => false

/-- Total remaining work. -/
def St.work (N : Nat) (s : St) : Nat := lsum PoolSleep.St.work s.w (List.range N)

theorem take_work {s s' : PoolSleep.St} {x : Task} (hs : PoolSleep.step s (.wTake x) = some s') :
    s'.work ≤ s.work + 5 + 2 * s.regs.length ∧ s'.regs = s.regs := by
  simp only [PoolSleep.step, PoolSleep.St.run] at hs
  split at hs
  · rename_i hp
    cases hs
    refine ⟨?_, rfl⟩
    simp only [PoolSleep.St.work, PoolSleep.St.tasks, PoolSleep.St.bonus, PoolSleep.WPc.again, hp, PoolSleep.WPc.acc,
      PoolSleep.WPc.rank]
    split <;> simp_all <;> omega
  · cases hs

theorem steal_work {s s' : PoolSleep.St} {k : Nat} (hs : PoolSleep.step s (.steal k) = some s') :
    s'.work + 100 + 10 * s.regs.length ≤ s.work := by
  simp only [PoolSleep.step] at hs
  split at hs
  · rename_i x hx
    split at hs
    · cases hs
      have hk : k < s.loc.length := by
        rw [List.getElem?_eq_some_iff] at hx; exact hx.1
      have hl : (s.loc.eraseIdx k).length + 1 = s.loc.length := by rw [List.length_eraseIdx_of_lt hk]; omega
      have ht : lsum List.length s.remote s.regs + s.pending.length + s.loc.length + s.wpc.acc.length
          = (lsum List.length s.remote s.regs + s.pending.length + (s.loc.eraseIdx k).length + s.wpc.acc.length) + 1 := by omega
      simp only [PoolSleep.St.work, PoolSleep.St.tasks, PoolSleep.St.bonus]
      rw [ht, Nat.mul_succ]
      omega
    · cases hs
  · cases hs

theorem work_dec {N : Nat} {s s' : St} {a : Act} (h : Inv N s) (ha : a.isWork = true) (hs : step N s a = some s') :
    s'.work N < s.work N := by
  cases a with
  | on i a =>
      simp only [step] at hs
      split at hs
      · rename_i hg
        split at hs
        · cases hs
        · rename_i w' hw
          cases hs
          have hd := PoolSleep.work_dec (PoolSleep.inv_reach _ (h.wr i)) ha hw
          have := lsum_upd_in PoolSleep.St.work s.w (b := w') (List.nodup_range (n := N)) (List.mem_range.2 hg.1)
          simp only [St.work]; omega
      · cases hs
  | reg q => cases ha
  | thief u v k =>
      simp only [step] at hs
      split at hs
      · rename_i hg
        split at hs
        · rename_i x v' hx hst
          split at hs
          · rename_i u' htk
            cases hs
            have h1 := steal_work hst
            have h2 := take_work htk
            have h3 := lsum_upd_in PoolSleep.St.work s.w (b := v') (List.nodup_range (n := N)) (List.mem_range.2 hg.2.1)
            have h4 := lsum_upd_in PoolSleep.St.work (upd s.w v v') (b := u') (List.nodup_range (n := N)) (List.mem_range.2 hg.1)
            rw [upd_other _ _ hg.2.2] at h4
            have h5 := h.rg u v hg.1 hg.2.1
            rw [h5] at h2
            simp only [St.work]; omega
          · cases hs
        · cases hs
      · cases hs

/-- **C51, the pool comes to rest.** From any reachable state, if nothing more is submitted, the workers make only boundedly
    many steps, however they are scheduled and whatever they steal from one another. -/
theorem C51_terminates {N : Nat} (s : St) (h : Reachable N s) : ∃ B, ∀ as s',
    (∀ a ∈ as, a.isWork = true) → exec (step N) s as = some s' → as.length ≤ B := by
  refine ⟨s.work N, fun as s' ha he => ?_⟩
  exact run_bound Act.isWork (fun s => Reachable N s) (St.work N)
    (fun s a s' hr ha hs => ⟨.tail a hr hs, work_dec (inv_reach hr) ha hs⟩) as s s' h ha he

/-- Work steps do not touch submissions, other threads or the stop flags. -/
theorem work_keep {N : Nat} {s s' : St} {a : Act} (ha : a.isWork = true) (hs : step N s a = some s') :
    s'.submitted = s.submitted ∧ ∀ i, (s'.w i).npc = (s.w i).npc ∧ (s'.w i).stop = (s.w i).stop := by
  cases a with
  | on i a =>
      simp only [step] at hs
      split at hs
      · split at hs
        · cases hs
        · rename_i w' hw
          cases hs
          obtain ⟨e1, e2, e3⟩ := PoolSleep.work_stop ha hw
          refine ⟨by simp [added, e3], fun j => ?_⟩
          simp only [upd_apply]; split
          · subst_vars; exact ⟨e2, e1⟩
          · exact ⟨rfl, rfl⟩
      · cases hs
  | reg q => cases ha
  | thief u v k =>
      simp only [step] at hs
      split at hs
      · split at hs
        · rename_i x v' hx hst
          split at hs
          · rename_i u' htk
            cases hs
            obtain ⟨e1, e2, e3⟩ := PoolSleep.work_stop (a := .steal k) rfl hst
            have e4 : u'.npc = (s.w u).npc ∧ u'.stop = (s.w u).stop := by
              simp only [PoolSleep.step, PoolSleep.St.run] at htk
              split at htk
              · cases htk; exact ⟨rfl, rfl⟩
              · cases htk
            refine ⟨rfl, fun j => ?_⟩
            simp only [upd_apply]; split
            · subst_vars; exact e4
            · split
              · subst_vars; exact ⟨e2, e1⟩
              · exact ⟨rfl, rfl⟩
          · cases hs
        · cases hs
      · cases hs

theorem run_keep {N : Nat} : ∀ (as : List Act) (s s' : St), (∀ a ∈ as, a.isWork = true) → exec (step N) s as = some s' →
    s'.submitted = s.submitted ∧ ∀ i, (s'.w i).npc = (s.w i).npc ∧ (s'.w i).stop = (s.w i).stop
  | [], s, s', _, he => by simp [exec] at he; subst he; exact ⟨rfl, fun _ => ⟨rfl, rfl⟩⟩
  | a :: as, s, s', ha, he => by
      simp only [exec] at he
      split at he
      · rename_i s1 h1
        obtain ⟨e1, e2⟩ := work_keep (ha a (by simp)) h1
        obtain ⟨f1, f2⟩ := run_keep as s1 s' (fun b hb => ha b (by simp [hb])) he
        exact ⟨f1.trans e1, fun i => ⟨(f2 i).1.trans (e2 i).1, (f2 i).2.trans (e2 i).2⟩⟩
      · cases he

/-- A worker of a pool in which no work step is possible is asleep or has returned. -/
theorem rest {N : Nat} {s : St} (h : Reachable N s) (hq : ∀ a : Act, a.isWork = true → step N s a = none) (i : Nat)
    (hi : i < N) : (s.w i).wpc = .asleep ∨ (s.w i).wpc = .exited := by
  have hI := inv_reach h
  have key : ∀ a : PoolSleep.Act, a.isWork = true → shared a = false → PoolSleep.step (s.w i) a = none := by
    intro a ha hsh
    have := hq (.on i a) ha
    simp only [step, hi, hsh, and_self, if_true] at this
    split at this
    · rename_i hn; exact hn
    · cases this
  exact PoolSleep.stuck_core (s.w i) (hI.wr i) (key .w rfl rfl) (key .finish rfl rfl) (fun k => key (.wAcc k) rfl rfl)

/-- **C51, everything gets executed.** If no thread is in the middle of a submission, a notification or a stop request and the
    pool is not being stopped, then whenever the pool has come to rest (which by `C51_terminates` it does), every task that was
    ever submitted has been executed, exactly as often as it was submitted, and with the index of the worker it was submitted to. -/
theorem C51_all_executed {N : Nat} {s s' : St} (h : Reachable N s) (as : List Act)
    (hn : ∀ i t, i < N → (s.w i).npc t = .idle) (hstop : ∀ i, i < N → (s.w i).stop = false)
    (ha : ∀ a ∈ as, a.isWork = true) (he : exec (step N) s as = some s')
    (hq : ∀ a : Act, a.isWork = true → step N s' a = none) (i : Nat) (hi : i < N) (x : Task) :
    execs i x s'.log = s.submitted.count (i, x) := by
  have hr' := Reach.trans_exec as s s' h he
  obtain ⟨k1, k2⟩ := run_keep as s s' ha he
  have hI := inv_reach hr'
  have h1 := C51_exactly_once hr' i x
  rw [k1] at h1
  have hsl : (s'.w i).wpc = .asleep := by
    rcases rest hr' hq i hi with hw | hw
    · exact hw
    · have := PoolSleep.exited_stop _ (hI.wr i) hw
      rw [(k2 i).2, hstop i hi] at this; cases this
  have hqt := PoolSleep.C38_quiet (s'.w i) (hI.wr i) hsl (fun t => by rw [(k2 i).1]; exact hn i t hi)
  have hz : waiting (s'.w i) x = 0 := by
    have h0 : (s'.w i).inRemote x = 0 := lsum_eq_zero _ _ (fun q _ => by simp [hqt.1 q])
    simp [waiting, hqt.2.1, hqt.2.2.1, hsl, PoolSleep.WPc.acc, h0]
  omega

/-- **C51, `join` returns.** Once stop was requested of every worker and no other thread is inside the pool, the workers, their
    tasks returning, make only boundedly many more steps (`C51_terminates`), and when they cannot step any more they have all
    returned, so that the destructor's `join` returns. -/
theorem C51_join_returns {N : Nat} {s : St} (h : Reachable N s) (hn : ∀ i t, i < N → (s.w i).npc t = .idle)
    (hstop : ∀ i, i < N → (s.w i).stop = true) (hq : ∀ a : Act, a.isWork = true → step N s a = none) (i : Nat) (hi : i < N) :
    (s.w i).wpc = .exited := by
  have hI := inv_reach h
  rcases rest h hq i hi with hw | hw
  · have := (PoolSleep.C38_quiet (s.w i) (hI.wr i) hw (fun t => hn i t hi)).2.2.2
    rw [hstop i hi] at this; cases this
  · exact hw

/-- A returned worker has no task of its own. -/
theorem exited_empty : ∀ s, Reach PoolSleep.init PoolSleep.step s → s.wpc = .exited → s.pending = [] ∧ s.loc = [] := by
  intro s hr
  refine Reach.inv' (fun s => s.wpc = .exited → s.pending = [] ∧ s.loc = []) (by simp [PoolSleep.init]) ?_ s hr
  intro s a s' hr ih hs hw
  by_cases hwe : s.wpc = .exited
  · have := ih hwe
    cases a <;> simp only [PoolSleep.step, PoolSleep.wStep, PoolSleep.nStep, PoolSleep.St.run] at hs <;> (repeat' split at hs) <;>
      simp at hs <;> (try subst hs) <;> simp_all
  · exact (PoolSleep.C38_exit s hr s' a hs hwe hw).2

/-- **C51, shutdown (partial).** Full statement: when a worker has returned, everything ever submitted to it has been executed.
    Proved: everything except what is still in its *remote* queues has been (by `C51_stop_drops` these may be non-empty). -/
theorem C51_shutdown_partial {N : Nat} {s : St} (h : Reachable N s) (i : Nat) (hw : (s.w i).wpc = .exited) (x : Task) :
    s.submitted.count (i, x) = execs i x s.log + (s.w i).inRemote x := by
  have hI := inv_reach h
  have h1 := C51_exactly_once h i x
  have h2 := exited_empty _ (hI.wr i) hw
  have h3 : waiting (s.w i) x = (s.w i).inRemote x := by simp [waiting, h2.1, h2.2, hw, PoolSleep.WPc.acc]
  omega

/-- Work left behind by returned workers is never executed. -/
theorem C51_dropped_for_good {N : Nat} {s s' : St} (hw : ∀ i, (s.w i).wpc = .exited) (as : List Act)
    (he : exec (step N) s as = some s') : s'.log = s.log := by
  suffices H : ∀ (as : List Act) (s s' : St), (∀ i, (s.w i).wpc = .exited) → exec (step N) s as = some s' → s'.log = s.log from
    H as s s' hw he
  intro as
  induction as with
  | nil => intro s s' _ he; simp [exec] at he; rw [he]
  | cons a as ih =>
      intro s s' hw he
      simp only [exec] at he
      split at he
      · rename_i s1 h1
        have key : s1.log = s.log ∧ ∀ i, (s1.w i).wpc = .exited := by
          cases a with
          | on i a =>
              simp only [step] at h1
              split at h1
              · rename_i hg
                split at h1
                · cases h1
                · rename_i w' hw'
                  cases h1
                  have hi := hw i
                  have hd : w'.done = (s.w i).done ∧ w'.wpc = .exited := by
                    cases a <;> simp only [PoolSleep.step, PoolSleep.wStep, PoolSleep.nStep, PoolSleep.St.run, hi] at hw' <;>
                      (repeat' split at hw') <;> simp at hw' <;> (try subst hw') <;> simp_all [shared]
                  refine ⟨by simp [added, hd.1], fun j => ?_⟩
                  simp only [upd_apply]; split
                  · exact hd.2
                  · exact hw j
              · cases h1
          | reg q =>
              simp only [step] at h1
              split at h1
              · cases h1
              · cases h1
                refine ⟨rfl, fun j => ?_⟩
                simp only; split <;> exact hw j
          | thief u v k =>
              simp only [step] at h1
              split at h1
              · split at h1
                · split at h1
                  · rename_i u' htk
                    simp [PoolSleep.step, hw u] at htk
                  · cases h1
                · cases h1
              · cases h1
        exact (ih s1 s' key.2 he).trans key.1
      · cases he

/-- Two workers; worker 1 polls its queues and finds nothing; then the same thread first submits task 7 to worker 1 and only
    afterwards asks both workers to stop; worker 1 returns without executing task 7. -/
def dropRun : List Act :=
  [.on 1 .w, .on 1 .w, .on 1 .w, .on 1 .w, .on 1 (.wAcc 0), .on 1 .w,   -- worker 1: nothing found, about to lock
   .on 1 (.push 9 0 7), .on 1 (.n 9),                                   -- submit task 7 to worker 1; state := notified
   .on 0 (.stop 9), .on 0 (.n 9), .on 0 (.n 9), .on 1 (.stop 9), .on 1 (.n 9), .on 1 (.n 9),
   .on 1 .w, .on 1 .w,                                                  -- worker 1 sees the flag and returns
   .on 0 .w, .on 0 .w, .on 0 .w, .on 0 .w, .on 0 (.wAcc 0), .on 0 .w, .on 0 .w, .on 0 .w]

/-- **C51, violated by the code.** A task submitted *before* stop was requested (by the same thread, whose calls have all
    returned) may be dropped: both workers have returned, task 7 was submitted once and executed never (and by
    `C51_dropped_for_good` never will be). -/
theorem C51_stop_drops : ∃ s, Reachable 2 s ∧ (decide ((s.w 0).wpc = .exited) && decide ((s.w 1).wpc = .exited)
    && decide (s.submitted = [(1, 7)]) && decide (s.log = []) && decide ((s.w 1).npc 9 = .idle)) = true :=
  Reach.witness dropRun (fun s : St => decide ((s.w 0).wpc = .exited) && decide ((s.w 1).wpc = .exited)
    && decide (s.submitted = [(1, 7)]) && decide (s.log = []) && decide ((s.w 1).npc 9 = .idle)) (by rfl)

/-- Non-vacuity: worker 0 gets three tasks in one go, keeps two and is robbed of one by worker 1, which executes it with `tid` 0. -/
example : ∃ s, Reachable 2 s ∧ (decide (s.log = [(0, 0, 5), (1, 0, 3)]) && decide (s.submitted = [(0, 5), (0, 4), (0, 3)])
    && decide ((s.w 0).loc = [4])) = true :=
  Reach.witness [.on 0 (.prepend 9 0 [5, 4, 3]), .on 0 (.n 9), .on 0 .w, .on 0 .w, .on 0 .w, .on 0 .w, .on 0 .w, .on 0 (.wAcc 3), .on 0 .w,
      .on 1 .w, .on 1 .w, .on 1 .w, .on 1 .w, .on 1 (.wAcc 0), .thief 1 0 0]
    (fun s : St => decide (s.log = [(0, 0, 5), (1, 0, 3)]) && decide (s.submitted = [(0, 5), (0, 4), (0, 3)])
    && decide ((s.w 0).loc = [4])) (by rfl)

end Verif.Pool
