import Verif.PoolSleep.Props
import Verif.Run
/-! # A pool worker — C38, everything handed to a worker gets executed -/
namespace Verif.PoolSleep

/-- The worker's own steps, the return of the task it executes, and thieves taking its tasks. -/
def Act.isWork : Act → Bool
  | .w | .wAcc _ | .finish | .steal _ => true
  | _ => false

/-- Tasks handed to the worker that nobody has taken yet. -/
def St.tasks (s : St) : Nat :=
  lsum List.length s.remote s.regs + s.pending.length + s.loc.length + s.wpc.acc.length

/-- Distance of the worker from going to sleep, `R` = number of remote queues. -/
def WPc.rank (R : Nat) : WPc → Nat
  | .asleep | .exited | .popR _ => 0
  | .wait => 1
  | .app .before _ => 2
  | .scan .before l _ => 3 + l.length
  | .ldList .before => 4 + R
  | .casS => 5 + R
  | .chkStop => 6 + R
  | .lock => 7 + R
  | .stealing => 8 + R
  | .app .spec _ => 9 + R
  | .scan .spec l _ => 10 + R + 2 * l.length
  | .deq [] _ => 10 + R
  | .deq (_ :: l) _ => 11 + R + 2 * l.length
  | .ldList .spec => 11 + 3 * R
  | .popL => 12 + 3 * R
  | .exch => 13 + 3 * R
  | .unlock => 14 + 3 * R
  | .woken => 15 + 3 * R
  | .exec => 13 + 3 * R
  | .casR => 14 + 3 * R

/-- Places from which a notified worker makes one more round. -/
def WPc.again : WPc → Bool
  | .exec | .popL | .ldList .spec | .scan .spec _ _ | .deq _ _ | .app .spec _ | .popR .spec | .stealing
  | .lock | .chkStop | .casS | .casR => true
  | _ => false

def St.bonus (s : St) : Nat :=
  if s.wpc.again = true ∧ s.state ≠ .running then 20 + 3 * s.regs.length else 0

def St.work (s : St) : Nat :=
  (100 + 10 * s.regs.length) * s.tasks + s.wpc.rank s.regs.length + s.bonus

theorem lsum_drain {s : St} (h : Inv s) (q : Nat) :
    lsum List.length (upd s.remote q []) s.regs + (s.remote q).length = lsum List.length s.remote s.regs := by
  by_cases hq : q ∈ s.regs
  · have := lsum_upd_in List.length s.remote (b := ([] : List Task)) h.nodup hq
    simpa using this
  · rw [lsum_upd_notin _ _ hq]
    have : s.remote q = [] := by
      by_cases e : s.remote q = []
      · exact e
      · exact absurd (h.reg q e) hq
    simp [this]

theorem len_dropLast {l : List Task} {x : Task} (h : l.getLast? = some x) :
    l.length = l.dropLast.length + 1 := by
  cases l with
  | nil => simp at h
  | cons a l => simp

/-- Same number of tasks, smaller rank. -/
theorem work_lt_same {s s' : St} (hr : s'.regs = s.regs) (ht : s'.tasks = s.tasks)
    (hl : s'.wpc.rank s.regs.length + s'.bonus < s.wpc.rank s.regs.length + s.bonus) : s'.work < s.work := by
  unfold St.work; rw [hr, ht]; omega

/-- One task fewer. -/
theorem work_lt_less {s s' : St} (hr : s'.regs = s.regs) (ht : s'.tasks + 1 = s.tasks)
    (hl : s'.wpc.rank s.regs.length + s'.bonus < 100 + 10 * s.regs.length + s.wpc.rank s.regs.length + s.bonus) :
    s'.work < s.work := by
  unfold St.work; rw [hr, ← ht, Nat.mul_add, Nat.mul_one]
  generalize (100 + 10 * s.regs.length) * s'.tasks = z
  omega

theorem bonus_le (s : St) : s.bonus ≤ 20 + 3 * s.regs.length := by
  unfold St.bonus; split <;> omega

set_option maxHeartbeats 2000000 in
theorem work_dec {s s' : St} {a : Act} (h : Inv s) (ha : a.isWork = true) (hs : step s a = some s') :
    s'.work < s.work := by
  cases a with
  | reg q => cases ha
  | push t q x => cases ha
  | prepend t q x => cases ha
  | poke t => cases ha
  | stop t => cases ha
  | n t => cases ha
  | pushLocal x b => cases ha
  | pushLocalBulk x => cases ha
  | wTake x => cases ha
  | wFail => cases ha
  | wake => cases ha
  | finish =>
      simp only [step] at hs; split at hs <;> simp at hs
      rename_i hw; subst hs
      refine work_lt_same rfl (by simp [St.tasks, hw, WPc.acc]) ?_
      simp only [St.bonus, hw, WPc.rank, WPc.again]; split <;> omega
  | steal i =>
      simp only [step] at hs
      split at hs
      · rename_i x hx
        split at hs <;> simp at hs
        subst hs
        have hi : i < s.loc.length := (List.getElem?_eq_some_iff.1 hx).1
        refine work_lt_less rfl ?_ ?_
        · simp only [St.tasks, List.length_eraseIdx, hi, ↓reduceIte]; omega
        · simp only [St.bonus]; omega
      · cases hs
  | wAcc k =>
      simp only [step] at hs
      split at hs
      · rename_i m acc hw
        split at hs
        · rename_i he
          split at hs <;> simp at hs
          subst hs
          have ha : acc = [] := by simp at he; exact he.2
          refine work_lt_same rfl (by cases m <;> simp [St.tasks, hw, WPc.acc, afterNone, ha]) ?_
          cases m <;> simp only [St.bonus, hw, WPc.rank, WPc.again, afterNone] <;> (try split) <;> simp_all <;> omega
        · split at hs <;> simp at hs
          rename_i hk
          subst hs
          refine work_lt_same rfl ?_ ?_
          · have := hk.1
            simp only [St.tasks, hw, WPc.acc, List.length_append, List.length_take, List.length_drop,
              List.length_nil] at *
            omega
          · cases m <;> simp only [St.bonus, hw, WPc.rank, WPc.again] <;> (try split) <;> simp_all <;> omega
      · cases hs
  | w =>
      simp only [step, wStep] at hs
      have hd := lsum_drain h
      have hb := bonus_le s
      split at hs <;> rename_i hw
      · cases hs
      · cases hs
      · cases hs
      · cases hs
      · -- popL
        split at hs <;> rename_i hl <;> simp only [Option.some.injEq] at hs <;> subst hs
        · have := len_dropLast hl
          refine work_lt_less rfl (by simp [St.tasks, hw, WPc.acc, St.run] at *; omega) ?_
          have := bonus_le ({ s.run ‹Task› with loc := s.loc.dropLast, top := false })
          simp only [St.run, WPc.rank, hw] at *; omega
        · refine work_lt_same rfl (by simp [St.tasks, hw, WPc.acc]) ?_
          simp only [St.bonus, hw, WPc.rank, WPc.again]; split <;> omega
      · -- ldList
        rename_i m
        simp only [Option.some.injEq] at hs; subst hs
        refine work_lt_same rfl (by simp [St.tasks, hw, WPc.acc]) ?_
        cases m <;> simp only [St.bonus, hw, WPc.rank, WPc.again] <;> (try split) <;> simp_all <;> omega
      · -- scan []
        rename_i m acc
        simp only [Option.some.injEq] at hs; subst hs
        refine work_lt_same rfl (by simp [St.tasks, hw, WPc.acc]) ?_
        cases m <;> simp only [St.bonus, hw, WPc.rank, WPc.again] <;> (try split) <;> simp_all <;> omega
      · -- scan before
        rename_i q l acc
        simp only [Option.some.injEq] at hs; subst hs
        have := hd q
        refine work_lt_same rfl ?_ ?_
        · simp [St.tasks, hw, WPc.acc]; omega
        · simp only [St.bonus, hw, WPc.rank, WPc.again, List.length_cons]; simp
      · rename_i q l acc
        split at hs <;> simp only [Option.some.injEq] at hs <;> subst hs
        · refine work_lt_same rfl (by simp [St.tasks, hw, WPc.acc]) ?_
          simp only [St.bonus, hw, WPc.rank, WPc.again, List.length_cons]; omega
        · refine work_lt_same rfl (by simp [St.tasks, hw, WPc.acc]) ?_
          simp only [St.bonus, hw, WPc.rank, WPc.again, List.length_cons]; omega
      · simp only [Option.some.injEq] at hs; subst hs
        refine work_lt_same rfl (by simp [St.tasks, hw, WPc.acc]) ?_
        simp only [St.bonus, hw, WPc.rank, WPc.again]; omega
      · rename_i q l acc
        simp only [Option.some.injEq] at hs; subst hs
        have := hd q
        refine work_lt_same rfl ?_ ?_
        · simp [St.tasks, hw, WPc.acc]; omega
        · simp only [St.bonus, hw, WPc.rank, WPc.again, List.length_cons]; omega
      · -- popR
        rename_i m
        split at hs
        · rename_i x hl
          have := len_dropLast hl
          split at hs <;> simp only [Option.some.injEq] at hs <;> subst hs
          · refine work_lt_less rfl (by simp [St.tasks, hw, WPc.acc, St.run] at *; omega) ?_
            have := bonus_le ({ s.run x with loc := s.loc.dropLast, top := false })
            simp only [St.run, WPc.rank, hw] at *; omega
          · refine work_lt_less rfl (by simp [St.tasks, hw, WPc.acc] at *; omega) ?_
            have := bonus_le ({ s with loc := s.loc.dropLast, top := false, wpc := .casR, done := s.done ++ [x] })
            simp only [WPc.rank, hw] at *; omega
        · rename_i hl
          exfalso
          have := h.tp (h.pop m hw)
          rw [List.getLast?_eq_none_iff] at hl; exact this hl
      · simp only [Option.some.injEq] at hs; subst hs
        refine work_lt_same rfl (by simp [St.tasks, hw, WPc.acc]) ?_
        simp only [St.bonus, hw, WPc.rank, WPc.again]; omega
      · split at hs <;> simp at hs
        subst hs
        refine work_lt_same rfl (by simp [St.tasks, hw, WPc.acc]) ?_
        simp only [St.bonus, hw, WPc.rank, WPc.again]; omega
      · split at hs <;> simp only [Option.some.injEq] at hs <;> subst hs
        · refine work_lt_same rfl (by simp [St.tasks, hw, WPc.acc]) ?_
          simp only [St.bonus, hw, WPc.rank, WPc.again]; simp; omega
        · refine work_lt_same rfl (by simp [St.tasks, hw, WPc.acc]) ?_
          simp only [St.bonus, hw, WPc.rank, WPc.again]; omega
      · split at hs <;> rename_i hst <;> simp only [Option.some.injEq] at hs <;> subst hs
        · refine work_lt_same rfl (by simp [St.tasks, hw, WPc.acc]) ?_
          simp only [St.bonus, hw, WPc.rank, WPc.again]; simp; omega
        · refine work_lt_same rfl (by simp [St.tasks, hw, WPc.acc]) ?_
          simp only [St.bonus, hw, WPc.rank, WPc.again]; simp [hst]; omega
      · simp only [Option.some.injEq] at hs; subst hs
        refine work_lt_same rfl (by simp [St.tasks, hw, WPc.acc]) ?_
        simp only [St.bonus, hw, WPc.rank, WPc.again]
        cases s.state <;> simp <;> omega
      · simp only [Option.some.injEq] at hs; subst hs
        refine work_lt_same rfl (by simp [St.tasks, hw, WPc.acc]) ?_
        simp only [St.bonus, hw, WPc.rank, WPc.again]; simp
      · split at hs <;> simp at hs
        subst hs
        refine work_lt_same rfl (by simp [St.tasks, hw, WPc.acc]) ?_
        simp only [St.bonus, hw, WPc.rank, WPc.again]; simp
      · simp only [Option.some.injEq] at hs; subst hs
        refine work_lt_same rfl (by simp [St.tasks, hw, WPc.acc]) ?_
        simp only [St.bonus, hw, WPc.rank, WPc.again]; simp
      · simp only [Option.some.injEq] at hs; subst hs
        refine work_lt_same rfl (by simp [St.tasks, hw, WPc.acc]) ?_
        simp only [St.bonus, hw, WPc.rank, WPc.again]; simp

/-- The worker cannot run for ever on finitely many tasks: from every reachable state, runs of the
    worker (with the tasks it executes returning, and thieves helping) are bounded. -/
theorem C38_terminates (s : St) (h : Reach init step s) : ∃ N, ∀ as s',
    (∀ a ∈ as, a.isWork = true) → exec step s as = some s' → as.length ≤ N := by
  refine ⟨s.work, fun as s' ha he => ?_⟩
  exact run_bound Act.isWork (fun s => Reach init step s) St.work
    (fun s a s' hr ha hs => ⟨.tail a hr hs, work_dec (inv_reach s hr) ha hs⟩) as s s' h ha he

/-- The worker is never stuck except asleep or after its exit. -/
theorem stuck_core (s : St) (h : Reach init step s) (hw : step s .w = none) (hf : step s .finish = none)
    (hac : ∀ k, step s (.wAcc k) = none) : s.wpc = .asleep ∨ s.wpc = .exited := by
  have hlk := (inv_reach s h).lck
  simp only [step, wStep] at hw
  cases hp : s.wpc with
  | asleep => simp
  | exited => simp
  | exec => have := hf; simp [step, hp] at this
  | app m acc =>
      exfalso
      by_cases he : s.pending ++ acc = []
      · have := hac 0; simp only [step, hp, he] at this; simp at this
      · have := hac (s.pending ++ acc).length
        have h1 : 1 ≤ (s.pending ++ acc).length := List.length_pos_iff.2 he
        simp only [step, hp, if_neg he] at this
        rw [if_pos ⟨Nat.le_refl _, fun _ => h1⟩] at this
        cases this
  | popL => simp only [hp] at hw; split at hw <;> cases hw
  | ldList m => simp only [hp] at hw; cases hw
  | scan m l acc =>
      simp only [hp] at hw
      cases l <;> cases m <;> simp at hw
      split at hw <;> cases hw
  | deq l acc => simp only [hp] at hw; cases l <;> simp at hw
  | popR m => simp only [hp] at hw; split at hw <;> (try split at hw) <;> cases hw
  | stealing => simp only [hp] at hw; cases hw
  | lock => simp only [hp] at hw; rw [hlk, hp] at hw; simp [WPc.locked] at hw
  | chkStop => simp only [hp] at hw; split at hw <;> cases hw
  | casS => simp only [hp] at hw; split at hw <;> cases hw
  | casR => simp only [hp] at hw; cases hw
  | wait => simp only [hp] at hw; cases hw
  | woken => simp only [hp] at hw; rw [hlk, hp] at hw; simp [WPc.locked] at hw
  | unlock => simp only [hp] at hw; cases hw
  | exch => simp only [hp] at hw; cases hw

/-- The worker is never stuck except asleep or after its exit. -/
theorem C38_stuck (s : St) (h : Reach init step s) (hq : ∀ a : Act, a.isWork = true → step s a = none) :
    s.wpc = .asleep ∨ s.wpc = .exited :=
  stuck_core s h (hq .w rfl) (hq .finish rfl) (fun k => hq (.wAcc k) rfl)

/-- A worker that has returned has seen the stop flag. -/
theorem exited_stop : ∀ s, Reach init step s → s.wpc = .exited → s.stop = true := by
  intro s hr
  refine Reach.inv' (fun s => s.wpc = .exited → s.stop = true) (by simp [init]) ?_ s hr
  intro s a s' hr ih hs hw
  by_cases hwe : s.wpc = .exited
  · have := ih hwe
    cases a <;> simp only [step, wStep, nStep, St.run] at hs <;> (repeat' split at hs) <;>
      simp at hs <;> (try subst hs) <;> simp_all
  · have hs1 := (C38_exit s hr s' a hs hwe hw).1
    cases a <;> simp only [step, wStep, nStep, St.run] at hs <;> (repeat' split at hs) <;>
      simp at hs <;> (try subst hs) <;> simp_all

theorem work_stop {s s' : St} {a : Act} (ha : a.isWork = true) (hs : step s a = some s') :
    s'.stop = s.stop ∧ s'.npc = s.npc ∧ s'.subm = s.subm := by
  cases a <;> simp [Act.isWork] at ha <;> simp only [step, wStep, St.run] at hs <;>
    (repeat' split at hs) <;> simp at hs <;> (try subst hs) <;> simp

/-- **C38** (every task gets executed). If no thread is in the middle of a submission, a notification or
    a stop request, and stop has not been requested, then the worker (its tasks returning) comes to
    rest after a bounded number of steps, whatever thieves do, and whenever it has come to rest every
    task ever handed to it has been executed by it or taken by a thief, exactly as often as it was
    handed over. -/
theorem C38_all_executed (s s' : St) (as : List Act) (h : Reach init step s)
    (hn : ∀ t, s.npc t = .idle) (hstop : s.stop = false)
    (ha : ∀ a ∈ as, a.isWork = true) (he : exec step s as = some s')
    (hq : ∀ a : Act, a.isWork = true → step s' a = none) (x : Task) :
    s.subm.count x = s'.done.count x + s'.stolen.count x := by
  have keep : ∀ (as : List Act) (s s' : St), (∀ a ∈ as, a.isWork = true) → exec step s as = some s' →
      s'.stop = s.stop ∧ s'.npc = s.npc ∧ s'.subm = s.subm := by
    intro as
    induction as with
    | nil => intro s s' _ he; simp [exec] at he; subst he; exact ⟨rfl, rfl, rfl⟩
    | cons a as ih =>
        intro s s' ha he
        simp only [exec] at he
        split at he
        · rename_i s1 h1
          obtain ⟨e1, e2, e3⟩ := work_stop (ha a (by simp)) h1
          obtain ⟨f1, f2, f3⟩ := ih s1 s' (fun b hb => ha b (by simp [hb])) he
          exact ⟨f1.trans e1, f2.trans e2, f3.trans e3⟩
        · cases he
  obtain ⟨k1, k2, k3⟩ := keep as s s' ha he
  have hr' := Reach.trans_exec as s s' h he
  have hc := C38_exactly_once s' hr' x
  rw [← k3, hc]
  have hsl : s'.wpc = .asleep := by
    rcases C38_stuck s' hr' hq with h1 | h1
    · exact h1
    · exfalso
      have := exited_stop s' hr' h1
      rw [k1, hstop] at this; cases this
  obtain ⟨q1, q2, q3, -⟩ := C38_quiet s' hr' hsl (by rw [k2]; exact hn)
  have hz : s'.inRemote x = 0 := by
    unfold St.inRemote; exact lsum_eq_zero _ _ fun q _ => by simp [q1 q]
  simp [hz, q2, q3, hsl, WPc.acc]

/-- Two tasks submitted to a sleeping worker, its submitter's notification delivered. -/
example : ∃ s, Reach init step s ∧ s.wpc = .woken ∧ s.subm = [7, 8] ∧ s.stop = false ∧
    ∀ t, s.npc t = .idle :=
  ⟨_, .of_exec [.w, .w, .w, .w, .wAcc 0, .w, .w, .w, .w, .w, .w, .w, .wAcc 0, .w,
    .push 0 0 7, .push 1 0 8, .n 0, .n 0, .n 0] rfl, rfl, rfl, rfl, fun t => by
      by_cases h0 : t = 0
      · subst h0; rfl
      · by_cases h1 : t = 1
        · subst h1; rfl
        · simp [upd, h0, h1, init]⟩

end Verif.PoolSleep
