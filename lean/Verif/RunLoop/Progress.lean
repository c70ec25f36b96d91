import Verif.RunLoop.Props
/-! # `run_loop` — C06, every scheduled task is executed -/
namespace Verif.RunLoop

/-- How much is left to do for `run()` before everything queued is executed. -/
def left2 (s : St) : Nat :=
  10 * (s.q.length + (todo s.rp).length) + match s.rp with
    | .notCalled => 4
    | .test => 3
    | .check => 2
    | .asleep => 0
    | .pop _ => 1
    | .batch _ [] _ => 5
    | .batch _ _ _ => 0
    | .load => 2
    | .returned => 0

/-- **C06**, every task is executed: whenever no call is in progress (and none was made after `run()`
returned), the thread in `run()` executes, by its own steps and without blocking, everything scheduled
so far — before any `finish()` as well as after. -/
theorem C06_executes (st s) (h : Reachable st s) (hs : Settled s) (hl : s.late = false) :
    ∃ k s', exec (step st) s (List.replicate k .run) = some s' ∧ s'.executed = s'.pushed ∧
      ∀ n, s.sp n ≠ .idle → .task n ∈ s'.executed := by
  have main : ∃ k s', exec (step st) s (List.replicate k .run) = some s' ∧ s'.executed = s'.pushed ∧
      s'.pushed = s.pushed := by
    generalize hm : left2 s = m
    induction m using Nat.strongRecOn generalizing s with
    | _ m ih =>
      have hi := inv_reach h
      by_cases hemp : s.q = [] ∧ todo s.rp = []
      · refine ⟨0, s, rfl, ?_, rfl⟩
        have := hi.order; rw [hemp.1, hemp.2] at this; simpa using this.symm
      have key : ∀ s', step st s .run = some s' → s'.late = false → Settled s' → s'.pushed = s.pushed →
          left2 s' < m →
          ∃ k s'', exec (step st) s (List.replicate k .run) = some s'' ∧ s''.executed = s''.pushed ∧
            s''.pushed = s.pushed := by
        intro s' h1 h2 h3 h4 h5
        obtain ⟨k, s'', h6, h7, h8⟩ := ih _ h5 s' (.tail _ h h1) h3 h2 rfl
        exact ⟨k + 1, s'', by simp [List.replicate_succ, exec, h1, h6], h7, h8.trans h4⟩
      cases hp : s.rp with
      | returned =>
          exact absurd ⟨(hi.quiet hp hl).1, by simp [hp, todo]⟩ hemp
      | notCalled =>
          exact key { s with rp := .test } (by simp [step, stepRun, hp]) hl hs rfl
            (by rw [← hm]; simp [left2, hp, todo])
      | test =>
          refine key { s with rp := if s.finishing then .pop true else .check } (by simp [step, stepRun, hp]) hl hs rfl ?_
          rw [← hm]; simp only [left2, hp]; split <;> simp [todo]
      | check =>
          have hq : s.q ≠ [] := fun e => hemp ⟨e, by simp [hp, todo]⟩
          exact key { s with rp := .pop false } (by simp [step, stepRun, hp, hq]) hl hs rfl
            (by rw [← hm]; simp [left2, hp, todo])
      | asleep =>
          exfalso
          rcases hi.sleep hp with hq | ⟨n, hn⟩ | ⟨f, hff⟩
          · exact hemp ⟨hq, by simp [hp, todo]⟩
          · rcases hs.1 n with h2 | h2 <;> rw [h2] at hn <;> cases hn
          · rcases hs.2 f with h2 | h2 <;> rw [h2] at hff <;> cases hff
      | pop d =>
          have hq : s.q ≠ [] := fun e => hemp ⟨e, by simp [hp, todo]⟩
          refine key { s with q := [], rp := .batch d s.q.reverse 0 } (by simp [step, stepRun, hp, hq]) hl hs rfl ?_
          rw [← hm]
          cases hq' : s.q.reverse with
          | nil => simp at hq'; exact absurd hq' hq
          | cons i l =>
              have hlen : s.q.length = l.length + 1 := by
                have := congrArg List.length hq'; simpa using this
              simp [left2, hp, todo, hlen]
      | batch d l k =>
          cases l with
          | nil =>
              refine key { s with count := s.count - k, rp := if d then .pop true else .test }
                (by simp [step, stepRun, hp]) hl hs rfl ?_
              rw [← hm]; cases d <;> simp [left2, hp, todo]
          | cons i l =>
              refine key (({ execItem st s i with rp := .batch d l (k + 1) } : St)) (by simp [step, stepRun, hp])
                ?_ ?_ ?_ ?_
              · cases i <;> exact hl
              · cases i <;> exact hs
              · cases i <;> rfl
              · rw [← hm]
                have : (execItem st s i).q = s.q := by cases i <;> rfl
                cases l <;> simp [left2, hp, todo, this] <;> omega
      | load =>
          have hq : s.q ≠ [] := fun e => hemp ⟨e, by simp [hp, todo]⟩
          have h1 := hi.cnt
          have h2 := exec_le hi
          rw [hp] at h1 h2
          simp only [pend, todo, List.length_nil] at h1 h2
          have hc : s.count ≠ 0 := by
            intro e
            have : 0 < s.q.length := List.length_pos_iff.2 hq
            omega
          exact key { s with rp := .pop true } (by simp [step, stepRun, hp, hc]) hl hs rfl
            (by rw [← hm]; simp [left2, hp, todo])
  obtain ⟨k, s', h1, h2, h3⟩ := main
  refine ⟨k, s', h1, h2, ?_⟩
  intro n hn
  rw [h2, h3]
  refine ((inv_reach h).pmem n).2 ?_
  rcases hs.1 n with h4 | h4
  · exact absurd h4 hn
  · exact .inr h4

/-- Two tasks scheduled, `run()` in its first loop, `finish()` not called. -/
example : ∃ s, Reachable (fun _ => true) s ∧ Settled s ∧ s.late = false ∧ s.finishing = false ∧
    s.q = [.task 5, .task 3] :=
  ⟨_, .of_exec [.run, .run, .run, .start 3, .start 3, .start 5, .start 5, .start 3] rfl,
   ⟨fun n => by
      by_cases h3 : n = 3
      · subst h3; right; rfl
      · by_cases h5 : n = 5
        · subst h5; right; rfl
        · left; simp [upd, h3, h5, init], fun f => .inl rfl⟩, rfl, rfl, rfl⟩

end Verif.RunLoop
