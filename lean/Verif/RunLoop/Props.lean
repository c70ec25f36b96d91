import Verif.RunLoop.Inv
/-! # `run_loop`: properties C06–C09

Every statement is for any number of tasks and threads, every interleaving, every choice of which
receivers are stoppable and when they are stopped. -/
namespace Verif.RunLoop

/-- The tasks in a sequence of queue entries. -/
def tasksOf (l : List Item) : List Nat := l.filterMap fun | .task n => some n | .noop => none

theorem mem_tasksOf {l : List Item} {n : Nat} : n ∈ tasksOf l ↔ .task n ∈ l := by
  simp only [tasksOf, List.mem_filterMap]
  constructor
  · rintro ⟨i, hi, h⟩; cases i <;> simp at h; subst h; exact hi
  · intro h; exact ⟨_, h, rfl⟩

/-! ## C06 -/

/-- **C06**, FIFO: what has been executed is a prefix of what has been enqueued, in enqueue order. -/
theorem C06_fifo (st s) (h : Reachable st s) : s.executed <+: s.pushed := by
  have := (inv_reach h).order
  exact ⟨todo s.rp ++ s.q.reverse, by rw [this]; simp⟩

/-- **C06**, at most once: no task is executed twice (and none that was not enqueued, by `C06_fifo`). -/
theorem C06_once (st s) (h : Reachable st s) : (tasksOf s.executed).Nodup := by
  have h1 := (C06_fifo st s h).sublist.nodup (inv_reach h).pnd
  unfold tasksOf
  refine List.Pairwise.filterMap _ ?_ h1
  intro a b hab c hc d hd
  cases a <;> cases b <;> simp at hc hd
  subst hc hd; rintro rfl; exact hab rfl

/-- **C06**: each executed task completes its receiver exactly then, once. -/
theorem C06_completions (st s) (h : Reachable st s) : s.compl.map Prod.fst = tasksOf s.executed :=
  (inv_reach h).comp

/-- **C06**: only the thread in `run()` executes tasks and completes receivers. -/
theorem C06_only_run (st s s' a) (hs : step st s a = some s') (ha : a ≠ .run) :
    s'.executed = s.executed ∧ s'.compl = s.compl := by
  cases a with
  | run => exact absurd rfl ha
  | start n =>
      simp only [step, stepStart] at hs
      (repeat' split at hs) <;> cases hs <;> exact ⟨rfl, rfl⟩
  | finish f =>
      simp only [step, stepFinish] at hs
      (repeat' split at hs) <;> cases hs <;> exact ⟨rfl, rfl⟩
  | requestStop n => simp only [step, Option.some.injEq] at hs; subst hs; exact ⟨rfl, rfl⟩
  | destroy => simp only [step] at hs; split at hs <;> cases hs; exact ⟨rfl, rfl⟩

/-- **C06**: a receiver is completed with `set_stopped` iff its token is stoppable and stop was requested
at that moment, with `set_value` otherwise. -/
theorem C06_kind (st s s' a) (hs : step st s a = some s') (hc : s'.compl ≠ s.compl) :
    ∃ n, s'.compl = s.compl ++ [(n, st n && s.stop n)] := by
  by_cases ha : a = .run
  · subst ha
    simp only [step, stepRun] at hs
    split at hs <;> try first | (cases hs; done) | (cases hs; exact absurd rfl hc)
    rename_i d i l k hp
    cases i with
    | noop => cases hs; exact absurd rfl hc
    | task n => cases hs; exact ⟨n, rfl⟩
  · exact absurd (C06_only_run st s s' a hs ha).2 hc

/-! ## C07 -/

/-- **C07** (and C06, nothing lost). At the moment `run()` returns, `finish()` has been called, everything
enqueued has been executed, and so has every task whose `start()` had begun. -/
theorem C07_drained (st s s' a) (h : Reachable st s) (hs : step st s a = some s') (h0 : s.rp ≠ .returned)
    (h1 : s'.rp = .returned) :
    (∃ f, s'.fp f ≠ .idle) ∧ s'.executed = s'.pushed ∧ ∀ n, s'.sp n ≠ .idle → .task n ∈ s'.executed := by
  have hr : Reachable st s' := .tail a h hs
  have hi := inv_reach hr
  have hl : s'.late = false → s'.late = false := id
  have hrun : s.rp = .load ∧ s.count = 0 ∧ s' = { s with rp := .returned } := by
    cases a with
    | start n =>
        simp only [step, stepStart] at hs
        exfalso
        (repeat' split at hs) <;> cases hs <;> first | exact h0 h1 | exact h0 (wake_ret.1 h1)
    | finish n =>
        simp only [step, stepFinish] at hs
        exfalso
        (repeat' split at hs) <;> cases hs <;> first | exact h0 h1 | exact h0 (wake_ret.1 h1)
    | requestStop n => simp only [step, Option.some.injEq] at hs; subst hs; exact absurd h1 h0
    | destroy => simp only [step] at hs; split at hs <;> cases hs; exact absurd h1 h0
    | run =>
        simp only [step, stepRun] at hs
        split at hs <;> cases hs <;> simp at h1
        · split at h1 <;> cases h1
        · split at h1 <;> cases h1
        · split at h1
          · split at h1 <;> cases h1
          · cases h1
        · split at h1 <;> cases h1
        · rename_i hp
          refine ⟨hp, h1, ?_⟩
          simp [h1]
  obtain ⟨hld, hc, rfl⟩ := hrun
  have hi0 := inv_reach h
  have h1 := hi0.cnt
  have h2 := exec_le hi0
  have h3 := hi0.order
  rw [hld] at h1 h2 h3
  simp only [pend, todo, List.length_nil, List.append_nil] at h1 h2 h3
  have hq : s.q = [] := List.length_eq_zero_iff.1 (by omega)
  have hep : s.executed = s.pushed := by rw [h3, hq]; simp
  refine ⟨?_, hep, fun n hn => ?_⟩
  · have hfin := hi0.drain (.inr (.inr (.inl hld)))
    rcases hi0.fin1 hfin with hno | ⟨f, hf⟩
    · refine Classical.byContradiction fun hall => ?_
      have hno2 : Item.noop ∈ s.pushed := hno
      have : ∀ s, Reachable st s → .noop ∈ s.pushed → ∃ f, s.fp f ≠ .idle := by
        intro s hs
        refine Reach.inv (fun s => Item.noop ∈ s.pushed → ∃ f, s.fp f ≠ .idle) (by simp [init]) ?_ s hs
        intro s a s' ih hst hm
        have key : (∃ f, s.fp f ≠ .idle) → ∃ f, s'.fp f ≠ .idle := by
          rintro ⟨f, hf⟩
          refine ⟨f, ?_⟩
          cases a with
          | start n =>
              simp only [step, stepStart] at hst
              (repeat' split at hst) <;> cases hst <;> exact hf
          | finish g =>
              simp only [step, stepFinish] at hst
              by_cases hfg : f = g
              · subst hfg
                (repeat' split at hst) <;> cases hst <;> simp only [upd_same] <;>
                  first | simp | (split <;> simp)
              · (repeat' split at hst) <;> cases hst <;> simp only [upd_other _ _ hfg] <;> exact hf
          | run =>
              simp only [step, stepRun] at hst
              (repeat' split at hst) <;> cases hst <;> first | exact hf | (rename_i i _ _ _; cases i <;> exact hf)
          | requestStop n => simp only [step, Option.some.injEq] at hst; subst hst; exact hf
          | destroy => simp only [step] at hst; split at hst <;> cases hst; exact hf
        cases a with
        | start n =>
            refine key (ih ?_)
            simp only [step, stepStart] at hst
            (repeat' split at hst) <;> cases hst <;> simpa using hm
        | finish g =>
            refine ⟨g, ?_⟩
            simp only [step, stepFinish] at hst
            (repeat' split at hst) <;> cases hst <;> simp only [upd_same] <;> first | simp | (split <;> simp)
        | run =>
            refine key (ih ?_)
            simp only [step, stepRun] at hst
            (repeat' split at hst) <;> cases hst <;> first | exact hm | (rename_i i _ _ _; cases i <;> exact hm)
        | requestStop n => simp only [step, Option.some.injEq] at hst; subst hst; exact key (ih hm)
        | destroy => simp only [step] at hst; split at hst <;> cases hst; exact key (ih hm)
      exact hall (this s h hno2)
    · exact ⟨f, by simp [hf]⟩
  · have hn' : s.sp n ≠ .idle := hn
    have hmem := (hi0.smem n).2 hn'
    have hle := le_lsum sw s.sp hmem
    show Item.task n ∈ s.executed
    rw [hep]
    refine (hi0.pmem n).2 ?_
    cases hsp : s.sp n with
    | idle => exact absurd hsp hn'
    | counted => rw [hsp] at hle; simp only [sw] at hle; omega
    | notify => simp
    | done => simp

/-- No agent (other than `run`) is in the middle of a call. -/
def Settled (s : St) : Prop :=
  (∀ n, s.sp n = .idle ∨ s.sp n = .done) ∧ ∀ f, s.fp f = .idle ∨ s.fp f = .done

/-- How much is left to do for `run()` once finishing. -/
def left (s : St) : Nat :=
  5 * s.q.length + 5 * (todo s.rp).length + match s.rp with
    | .notCalled => 6
    | .test => 3
    | .check => 5
    | .asleep => 0
    | .pop true => 2
    | .pop false => 4
    | .batch _ l k => if k = 0 ∧ l ≠ [] then 1 else 4
    | .load => 1
    | .returned => 0

/-- **C07**, `run()` does return: once `finish()` has been called and no other call is in progress, `run()`
returns after finitely many of its own steps (none of which blocks). -/
theorem C07_returns (st s) (h : Reachable st s) (hf : s.finishing = true) (hs : Settled s) :
    ∃ k s', exec (step st) s (List.replicate k .run) = some s' ∧ s'.rp = .returned := by
  generalize hm : left s = m
  induction m using Nat.strongRecOn generalizing s with
  | _ m ih =>
    have hi := inv_reach h
    by_cases hret : s.rp = .returned
    · exact ⟨0, s, rfl, hret⟩
    -- the noop has been pushed
    have hnoop : Item.noop ∈ s.pushed := by
      rcases hi.fin1 hf with h1 | ⟨f, h1⟩
      · exact h1
      · rcases hs.2 f with h2 | h2 <;> rw [h2] at h1 <;> cases h1
    have hnf : ∀ n, s.sp n ≠ .counted := fun n e => by
      rcases hs.1 n with h2 | h2 <;> rw [h2] at e <;> cases e
    have key : ∀ s', step st s .run = some s' → s'.finishing = true → Settled s' → left s' < m →
        ∃ k s'', exec (step st) s (List.replicate k .run) = some s'' ∧ s''.rp = .returned := by
      intro s' h1 h2 h3 h4
      obtain ⟨k, s'', h5, h6⟩ := ih _ h4 s' (.tail _ h h1) h2 h3 rfl
      exact ⟨k + 1, s'', by simp [List.replicate_succ, exec, h1, h5], h6⟩
    -- while not in a batch, an empty queue means that the noop has been executed
    have hqe : todo s.rp = [] → s.q = [] → Item.noop ∈ s.executed := by
      intro h1 h2
      have := hi.order; rw [h1, h2] at this; simp at this; rw [← this]; exact hnoop
    cases hp : s.rp with
    | returned => exact absurd hp hret
    | notCalled =>
        exact key { s with rp := .test } (by simp [step, stepRun, hp]) hf hs (by rw [← hm]; simp [left, hp, todo])
    | test =>
        exact key { s with rp := .pop true } (by simp only [step, stepRun, hp]; rw [if_pos hf]) hf hs
          (by rw [← hm]; simp [left, hp, todo])
    | check =>
        by_cases hq : s.q = []
        · exact absurd (hqe (by simp [hp, todo]) hq) (hi.noopF (by simp [hp, inFirst]))
        · exact key { s with rp := .pop false } (by simp [step, stepRun, hp, hq]) hf hs (by rw [← hm]; simp [left, hp, todo])
    | asleep =>
        exfalso
        have hex := hi.noopF (by simp [hp, inFirst])
        rcases hi.sleep hp with hq | ⟨n, hn⟩ | ⟨f, hff⟩
        · exact hex (hqe (by simp [hp, todo]) hq)
        · rcases hs.1 n with h2 | h2 <;> rw [h2] at hn <;> cases hn
        · rcases hs.2 f with h2 | h2 <;> rw [h2] at hff <;> cases hff
    | pop d =>
        by_cases hq : s.q = []
        · cases d
          · exact key { s with q := [], rp := .test } (by simp [step, stepRun, hp, hq]) hf hs
              (by rw [← hm]; simp [left, hp, hq, todo])
          · exact key { s with q := [], rp := .load } (by simp [step, stepRun, hp, hq]) hf hs
              (by rw [← hm]; simp [left, hp, hq, todo])
        · refine key { s with q := [], rp := .batch d s.q.reverse 0 } (by simp [step, stepRun, hp, hq]) hf hs ?_
          rw [← hm]; cases d <;> simp [left, hp, hq, todo]
    | batch d l k =>
        cases l with
        | nil =>
            refine key { s with count := s.count - k, rp := if d then .pop true else .test }
              (by simp [step, stepRun, hp]) hf hs ?_
            rw [← hm]; cases d <;> simp [left, hp, todo]
        | cons i l =>
            refine key (({ execItem st s i with rp := .batch d l (k + 1) } : St)) (by simp [step, stepRun, hp]) ?_ ?_ ?_
            · cases i <;> exact hf
            · cases i <;> exact hs
            · rw [← hm]
              have : (execItem st s i).q = s.q := by cases i <;> rfl
              simp only [left, hp, todo, this, List.length_cons]
              split <;> (try split) <;> omega
    | load =>
        have h1 := hi.cnt
        have h2 := exec_le hi
        rw [hp] at h1 h2
        simp only [pend, todo, List.length_nil] at h1 h2
        have hsw : lsum sw s.sp s.started = 0 := lsum_eq_zero _ _ fun n _ => by
          rcases hs.1 n with h3 | h3 <;> rw [h3] <;> rfl
        have hfw : lsum fw s.fp s.fins = 0 := lsum_eq_zero _ _ fun n _ => by
          rcases hs.2 n with h3 | h3 <;> rw [h3] <;> rfl
        by_cases hc : s.count = 0
        · exact ⟨1, _, by simp [exec, step, stepRun, hp]; rfl, by simp [hc]⟩
        · -- more was queued meanwhile
          have hq : s.q ≠ [] := by
            intro e; rw [e] at h2; simp at h2; omega
          have s1 : step st s .run = some { s with rp := .pop true } := by simp [step, stepRun, hp, hc]
          have s2 : step st { s with rp := .pop true } .run =
              some { s with q := [], rp := .batch true s.q.reverse 0 } := by simp [step, stepRun, hq]
          have hr2 : Reachable st { s with q := [], rp := .batch true s.q.reverse 0 } :=
            .tail _ (.tail _ h s1) s2
          cases hq' : s.q.reverse with
          | nil => simp at hq'; exact absurd hq' hq
          | cons i l =>
              rw [hq'] at s2 hr2
              have s3 : step st { s with q := [], rp := .batch true (i :: l) 0 } .run =
                  some { execItem st { s with q := [], rp := .batch true (i :: l) 0 } i with rp := .batch true l 1 } := by
                simp [step, stepRun]
              have hlen : s.q.length = l.length + 1 := by
                have := congrArg List.length hq'; simpa using this
              obtain ⟨k, s'', h5, h6⟩ := ih
                (left { execItem st { s with q := [], rp := .batch true (i :: l) 0 } i with rp := .batch true l 1 })
                (by
                  rw [← hm]
                  have : (execItem st { s with q := [], rp := .batch true (i :: l) 0 } i).q = [] := by cases i <;> rfl
                  simp only [left, hp, todo, this, hlen, List.length_nil]
                  split <;> omega)
                _ (.tail _ hr2 s3) (by cases i <;> exact hf) (by cases i <;> exact hs) rfl
              exact ⟨k + 3, s'', by
                simp only [List.replicate_succ, exec, s1, s2, s3]; exact h5, h6⟩

/-! ## C08 -/

/-- **C08**: if `run()` sleeps while something is queued, some thread is about to call `notify_one`. -/
theorem C08_no_lost_wakeup (st s) (h : Reachable st s) (hz : s.rp = .asleep) (hq : s.q ≠ []) :
    (∃ n, s.sp n = .notify) ∨ ∃ f, s.fp f = .notify :=
  ((inv_reach h).sleep hz).resolve_left hq

/-- **C08**: if `run()` sleeps after some `finish()` set the flag, then that call is still about to push
and notify, or some other thread is about to notify. -/
theorem C08_finish_wakes (st s) (h : Reachable st s) (hz : s.rp = .asleep) (hf : s.finishing = true) :
    (∃ f, s.fp f = .first) ∨ (∃ n, s.sp n = .notify) ∨ ∃ f, s.fp f = .notify := by
  have hi := inv_reach h
  rcases hi.fin1 hf with h1 | h1
  · rcases hi.sleep hz with h2 | h2
    · have := hi.order; rw [h2, hz] at this; simp [todo] at this
      rw [this] at h1
      exact absurd h1 (hi.noopF (by simp [hz, inFirst]))
    · exact .inr h2
  · exact .inl h1

/-- **C08**: a `notify_one` does wake a sleeping `run()`. -/
theorem C08_notify_wakes (st s s' n) (hz : s.rp = .asleep) (hn : s.sp n = .notify)
    (hs : step st s (.start n) = some s') : s'.rp = .check := by
  simp [step, stepStart, hn] at hs; subst hs; simp [hz, wake]

/-- `run()` asleep, a producer about to notify. -/
example : ∃ s, Reachable (fun _ => true) s ∧ (s.rp == .asleep && s.sp 3 == .notify) = true :=
  Reach.witness [.run, .run, .run, .start 3, .start 3] _ (by decide)

/-- A complete run: task 3 starts task 4 (from another thread), which is stopped; `finish`, drain, return. -/
example : ∃ s, Reachable (fun _ => true) s ∧
    (s.rp == .returned && s.executed == [.task 3, .task 4, .noop] && s.compl == [(3, false), (4, true)]) = true :=
  Reach.witness [.run, .run, .run, .start 3, .start 3, .start 3, .run, .run, .run, .start 4, .finish 0, .finish 0,
    .start 4, .requestStop 4, .finish 0, .finish 0, .run, .run, .run, .run, .run, .run, .run, .run, .start 4] _ (by decide)

/-! ## C09 -/

/-- **C09** for `finish()`: a loop destroyed after `run()` returned is not touched by a pending `finish()`. -/
theorem C09_finish (st s) (h : Reachable st s) : s.uafFinish = false := (inv_reach h).noUaf

/-- **C09** for `start()` (partial): the only access that can come after destruction is the final
`notify_one` of a `start()` that found the queue empty; by then its task has been executed. -/
theorem C09_start_partial (st s s' a) (h : Reachable st s) (hs : step st s a = some s')
    (h0 : s.uafStart = false) (h1 : s'.uafStart = true) :
    ∃ n, a = .start n ∧ s.sp n = .notify ∧ .task n ∈ s.executed := by
  have hi := inv_reach h
  cases a with
  | start n =>
      refine ⟨n, rfl, ?_⟩
      cases hp : s.sp n with
      | idle =>
          simp only [step, stepStart, hp] at hs
          split at hs <;> cases hs; simp [h0] at h1
      | counted =>
          simp only [step, stepStart, hp, Option.some.injEq] at hs; subst hs
          simp [h0] at h1
          have := hi.deadR h1
          exact absurd hp ((hi.quiet this.1 this.2).2.1 n)
      | notify =>
          simp only [step, stepStart, hp, Option.some.injEq] at hs; subst hs
          simp [h0] at h1
          have h2 := hi.deadR h1
          have h3 := hi.quiet h2.1 h2.2
          refine ⟨rfl, ?_⟩
          have h4 := hi.order
          rw [h2.1, h3.1] at h4; simp [todo] at h4
          rw [← h4]; exact (hi.pmem n).2 (.inl hp)
      | done => simp [step, stepStart, hp] at hs
  | finish f =>
      simp only [step, stepFinish] at hs
      (repeat' split at hs) <;> cases hs <;> simp [h0] at h1
  | run =>
      simp only [step, stepRun] at hs
      split at hs <;> cases hs <;> simp [h0] at h1
      rename_i i _ _ _; cases i <;> simp [execItem, h0] at h1
  | requestStop n => simp only [step, Option.some.injEq] at hs; subst hs; simp [h0] at h1
  | destroy => simp only [step] at hs; split at hs <;> cases hs; simp [h0] at h1

/-- **C09** is false for `start()`: `run()` has returned, the loop has been destroyed, and the `start()` of
an already executed task then calls `notify_one` on it. -/
theorem C09_start_false : ∃ s, Reachable (fun _ => true) s ∧ s.uafStart = true :=
  Reach.witness [Act.start 3, Act.start 3, Act.finish 0, Act.finish 0, Act.finish 0, Act.finish 0, Act.run, Act.run,
    Act.run, Act.run, Act.run, Act.run, Act.run, Act.run, Act.destroy, Act.start 3] (fun s : St => s.uafStart) (by decide)

end Verif.RunLoop
