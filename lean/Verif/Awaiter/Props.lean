import Verif.Awaiter.Inv
import Verif.Run
/-!
# C53: awaiting senders in a coroutine

All theorems quantify over every reachable state of the machine in `Model.lean`: any number of awaits,
any assignment of completions to threads, any interleaving.
-/
namespace Verif.Awaiter
set_option maxHeartbeats 2000000

/-! ## Results -/

/-- **C53.** The coroutine is resumed (or told to stop) at most once for each `co_await`. -/
theorem resumed_at_most_once {t0 : Nat} {s : St} (h : Reach (init t0) step s) (k : Nat) :
    (s.aw k).resumed ≤ 1 := by
  have hi := inv_reach h
  by_cases hk : k < s.n
  · by_cases hh : here s.co = some k
    · cases hc : s.co with
      | sus j => rw [hc] at hh; simp [here] at hh; subst hh; have := hi.sus j hc; omega
      | run t => rw [hc] at hh; simp [here] at hh
      | fin => rw [hc] at hh; simp [here] at hh
      | res j t => rw [hc] at hh; simp [here] at hh; subst hh; have := (hi.res j t hc).2.1.2.2; omega
      | stopped j => rw [hc] at hh; simp [here] at hh; subst hh; have := (hi.stop j hc).1.2.2; omega
    · have := (hi.old k hk hh).1.2.2; omega
  · have := hi.fresh k (by omega); omega

/-- **C53.** The coroutine observes the awaits one after another, each exactly once and in program
order, and `await_resume` returns (or throws) exactly what the operation completed with; a coroutine
that is running or has returned has observed them all. -/
theorem observed {t0 : Nat} {s : St} (h : Reach (init t0) step s) :
    ∃ m, s.log = (List.range m).reverse.map (fun k => (k, (s.aw k).res)) ∧ m ≤ s.n ∧
      (∀ t, s.co = .run t → m = s.n) ∧ (s.co = .fin → m = s.n) ∧
      (∀ k, s.co = .stopped k → m = s.n ∧ k + 1 = m ∧ (s.aw k).res = .stopped) := by
  have hi := inv_reach h
  refine ⟨delivered s, hi.log, ?_, ?_, ?_, ?_⟩
  · unfold delivered; split <;> omega
  · intro t ht; simp [delivered, ht]
  · intro ht; simp [delivered, ht]
  · intro k ht
    have h1 := hi.last k (by rw [ht]; rfl)
    have h2 : delivered s = s.n := by simp [delivered, ht]
    exact ⟨h2, by omega, (hi.stop k ht).2⟩

/-- **C53.** What is observed is what the completion delivered: the result of an await changes only when
its operation completes, and then becomes the completion's result. -/
theorem result_from_completion {s s' : St} {a : Act} (hs : step s a = some s') (k : Nat) (hk : k < s.n)
    (hne : (s'.aw k).res ≠ (s.aw k).res) : ∃ c r, a = .complete k c r ∧ (s'.aw k).res = r := by
  cases a <;> simp only [step] at hs
  case complete j c r =>
    refine ⟨c, r, ?_⟩
    by_cases hjk : k = j
    · subst hjk
      refine ⟨rfl, ?_⟩
      split at hs
      case isFalse => cases hs
      split at hs
      · cases hs; simp [setAw]
      · split at hs
        · cases hs
        · cases hs; simp [setAw]
    · exfalso; apply hne
      split at hs
      case isFalse => cases hs
      split at hs
      · cases hs; simp [setAw, upd, hjk]
      · split at hs
        · cases hs
        · cases hs; simp [setAw, upd, hjk]
  all_goals
    exfalso; apply hne
    repeat' split at hs
    all_goals first
      | (cases hs; done)
      | (cases hs; simp only [setAw, resume_aw, upd]; grind)
      | (cases hs; rfl)

/-- **C53.** Nothing accesses an awaiter after the coroutine destroyed it. -/
theorem no_use_after_destroy {t0 : Nat} {s : St} (h : Reach (init t0) step s) : s.bad = false :=
  (inv_reach h).bad

/-- **C53.** Whenever the coroutine is not suspended, `await_suspend` and the completion of every await
begun so far have made their last access: the coroutine never runs concurrently with either. -/
theorem runs_alone {t0 : Nat} {s : St} (h : Reach (init t0) step s) (hc : ∀ k, s.co ≠ .sus k)
    (k : Nat) (hk : k < s.n) :
    (s.aw k).s = .fin ∧ (s.aw k).p = .fin ∧ (s.aw k).resumed = 1 := by
  have hi := inv_reach h
  by_cases hh : here s.co = some k
  · cases hx : s.co with
    | sus j => exact absurd hx (hc j)
    | run t => rw [hx] at hh; simp [here] at hh
    | fin => rw [hx] at hh; simp [here] at hh
    | res j t => rw [hx] at hh; simp [here] at hh; subst hh; exact (hi.res j t hx).2.1
    | stopped j => rw [hx] at hh; simp [here] at hh; subst hh; exact (hi.stop j hx).1
  · exact (hi.old k hk hh).1

/-- **C53.** However many operations complete inside `start()`, no thread ever has more than one
`resume()` of the coroutine on its stack. -/
theorem bounded_stack {t0 : Nat} {s : St} (h : Reach (init t0) step s) (t : Nat) : s.depth t ≤ 1 :=
  (inv_reach h).dStop t

/-- **C53.** After an await that completed inside `start()` the coroutine continues on the awaiting
thread; otherwise it continues on the thread that completed the operation. -/
theorem resumes_where {t0 : Nat} {s s' : St} (h : Reach (init t0) step s) {a : Act} {k t : Nat}
    (hs : step s a = some s') (h0 : s.co = .sus k) (h1 : s'.co = .res k t) : t = (s.aw k).c := by
  have hi := inv_reach h
  have hsu := hi.sus k h0
  have htab := hsu.2.2
  unfold tab at htab
  have key : ∀ (b : Aw) (j u : Nat), (resume s j u b).co = .res k t → t = u ∧ j = k := by
    intro b j u hr
    simp only [resume] at hr
    split at hr
    · simp at hr
    · simp only [Co.res.injEq] at hr; exact ⟨hr.2.symm, hr.1⟩
  cases a <;> simp only [step, h0] at hs
  case starter j =>
    split at hs
    case isFalse => cases hs
    split at hs
    · split at hs <;> cases hs <;> simp [setAw, h0] at h1
    · rename_i hpc
      cases hs
      have := key _ _ _ h1
      obtain ⟨e1, e2⟩ := this
      subst e2
      have h3 := htab.2.1 hpc
      -- an inline completion runs on the awaiting thread
      rw [inl_same h j h3.2]; exact e1
    · cases hs
  case comp j =>
    split at hs
    case isFalse => cases hs
    split at hs
    · split at hs <;> cases hs <;> simp [setAw, h0] at h1
    · cases hs; simp [setAw, h0] at h1
    · split at hs <;> cases hs <;> simp [setAw, h0] at h1
    · split at hs
      · cases hs; simp [setAw, h0] at h1
      · cases hs
    · cases hs
      have := key _ _ _ h1
      rw [this.1, this.2]
    · cases hs
  all_goals
    repeat' split at hs
    all_goals first
      | (cases hs; done)
      | (cases hs; simp [setAw, h0] at h1)

/-! ## Progress -/

/-- The steps of `await_suspend` after `start()` returned and of the completion: everything but the
coroutine's body, the awaited operation and `start()` itself. -/
def internal : Act → Bool
  | .starter _ => true
  | .comp _ => true
  | _ => false

/-- **C53.** When the awaited operation has completed and `start()` has returned, the coroutine is not
stuck: `await_suspend` or the completion can take a step. -/
theorem not_stuck {t0 : Nat} {s : St} (h : Reach (init t0) step s) {k : Nat} (hc : s.co = .sus k)
    (h1 : (s.aw k).s ≠ .start) (h2 : (s.aw k).p ≠ .idle) :
    (step s (.starter k)).isSome ∨ (step s (.comp k)).isSome := by
  have hi := inv_reach h
  have hsu := hi.sus k hc
  have hl := hi.last k (by rw [hc]; rfl)
  have htab := hsu.2.2
  unfold tab at htab
  have hk : k < s.n := by omega
  simp only [step, hk, if_true]
  cases hs : (s.aw k).s with
  | start => exact absurd hs h1
  | xchg => left; simp only []; split <;> rfl
  | get => left; rfl
  | fin =>
    right
    have := htab.2.2 hs
    cases hp : (s.aw k).p with
    | idle => exact absurd hp h2
    | load => simp only []; split <;> rfl
    | store => rfl
    | xchg => simp only []; split <;> rfl
    | spin =>
      have : (s.aw k).slot = none := by grind
      simp [this]
    | get => rfl
    | fin => grind

/-- **C53.** A completing thread waits for the awaiting thread only while that thread has not returned
from `start()` or has not yet performed its one exchange after it. -/
theorem waits_only_for_start {t0 : Nat} {s : St} (h : Reach (init t0) step s) {k : Nat} (hk : k < s.n)
    (hp : (s.aw k).p = .spin) (hb : step s (.comp k) = none) :
    (s.aw k).s = .start ∨ (s.aw k).s = .xchg := by
  have hi := inv_reach h
  have hc := not_over hi hk (.inr (by rw [hp]; simp))
  have htab := (hi.sus k hc).2.2
  unfold tab at htab
  cases hs : (s.aw k).s with
  | start => simp
  | xchg => simp
  | get => have := htab.2.1 hs; grind
  | fin =>
    have := htab.2.2 hs
    have hn : (s.aw k).slot = none := by grind
    simp [step, hk, hp, hn] at hb

def wS : SPc → Nat
  | .start => 3 | .xchg => 2 | .get => 1 | .fin => 0

def wC : CPc → Nat
  | .idle => 6 | .load => 5 | .store => 4 | .xchg => 3 | .spin => 2 | .get => 1 | .fin => 0

/-- What is left to do for the await in which the coroutine is suspended. -/
def left (s : St) : Nat :=
  match s.co with
  | .sus k => wS (s.aw k).s + wC (s.aw k).p
  | _ => 0

theorem left_le (s : St) : left s ≤ 9 := by
  unfold left
  split
  · rename_i k _
    have h1 : wS (s.aw k).s ≤ 3 := by cases (s.aw k).s <;> simp [wS]
    have h2 : wC (s.aw k).p ≤ 6 := by cases (s.aw k).p <;> simp [wC]
    omega
  · omega

theorem resume_co (s : St) (k t : Nat) (a : Aw) (j : Nat) : (resume s k t a).co ≠ .sus j := by
  simp only [resume]; split <;> simp

theorem left_resume (s : St) (k t : Nat) (a : Aw) (d : Nat → Nat) :
    left { resume s k t a with depth := d } = 0 := by
  unfold left
  split
  · rename_i j hj; exact absurd hj (resume_co s k t a j)
  · rfl

theorem left_resume' (s : St) (k t : Nat) (a : Aw) : left (resume s k t a) = 0 :=
  left_resume s k t a _

theorem internal_decreases {t0 : Nat} (s : St) (a : Act) (s' : St) (h : Reach (init t0) step s)
    (ha : internal a = true) (hs : step s a = some s') : Reach (init t0) step s' ∧ left s' < left s := by
  refine ⟨.tail a h hs, ?_⟩
  have hi := inv_reach h
  cases a <;> simp only [internal, Bool.false_eq_true] at ha
  case starter k =>
    simp only [step] at hs
    split at hs
    case isFalse => cases hs
    rename_i hk
    split at hs
    · rename_i hpc
      have hco := not_over hi hk (.inl (by rw [hpc]; simp))
      split at hs <;> cases hs <;> simp [left, setAw, hco, hpc, wS]
    · rename_i hpc
      have hco := not_over hi hk (.inl (by rw [hpc]; simp))
      cases hs
      rw [left_resume']
      simp [left, hco, hpc, wS]; omega
    · cases hs
  case comp k =>
    simp only [step] at hs
    split at hs
    case isFalse => cases hs
    rename_i hk
    split at hs
    · rename_i hpc
      have hco := not_over hi hk (.inr (by rw [hpc]; simp))
      split at hs <;> cases hs <;> simp [left, setAw, hco, hpc, wC]
    · rename_i hpc
      have hco := not_over hi hk (.inr (by rw [hpc]; simp))
      cases hs; simp [left, setAw, hco, hpc, wC]
    · rename_i hpc
      have hco := not_over hi hk (.inr (by rw [hpc]; simp))
      split at hs <;> cases hs <;> simp [left, setAw, hco, hpc, wC]
    · rename_i hpc
      have hco := not_over hi hk (.inr (by rw [hpc]; simp))
      split at hs
      case isFalse => cases hs
      cases hs; simp [left, setAw, hco, hpc, wC]
    · rename_i hpc
      have hco := not_over hi hk (.inr (by rw [hpc]; simp))
      cases hs
      rw [left_resume]
      simp [left, hco, hpc, wC]
    · cases hs

/-- **C53.** From any reachable state at most nine steps of `await_suspend` and of completions can be
taken before the coroutine's body, the operation or `start()` has to do something: no livelock. -/
theorem internal_terminates {t0 : Nat} {s s' : St} (h : Reach (init t0) step s) (as : List Act)
    (ha : ∀ a ∈ as, internal a = true) (he : exec step s as = some s') : as.length ≤ 9 :=
  Nat.le_trans (run_bound internal (Reach (init t0) step) left
    (fun s a s' hP hi hs => internal_decreases s a s' hP hi hs) as s s' h ha he) (left_le s)

theorem internal_keeps {t0 : Nat} {k : Nat} : ∀ (as : List Act) (s s' : St), Reach (init t0) step s →
    (∀ a ∈ as, internal a = true) → exec step s as = some s' →
    ((s.aw k).s ≠ .start → (s'.aw k).s ≠ .start) ∧ ((s.aw k).p ≠ .idle → (s'.aw k).p ≠ .idle) ∧
    (s'.co = .sus k → s.co = .sus k)
  | [], s, s', _, _, he => by simp [exec] at he; subst he; simp
  | a :: as, s, s', h, ha, he => by
      rw [exec] at he
      split at he
      case h_2 => cases he
      rename_i s1 h1
      have ih := internal_keeps (k := k) as s1 s' (.tail a h h1) (fun b hb => ha b (by simp [hb])) he
      have hi := ha a (by simp)
      have h2 : ((s.aw k).s ≠ .start → (s1.aw k).s ≠ .start) ∧
          ((s.aw k).p ≠ .idle → (s1.aw k).p ≠ .idle) ∧ (s1.co = .sus k → s.co = .sus k) := by
        have hr : ∀ j t b, (resume s j t b).co = .sus k → s.co = .sus k :=
          fun j t b hh => absurd hh (resume_co s j t b k)
        cases a <;> simp only [internal, Bool.false_eq_true] at hi
        all_goals
          simp only [step] at h1
          repeat' split at h1
          all_goals first
            | (cases h1; done)
            | (cases h1; refine ⟨?_, ?_, ?_⟩ <;> first
                 | (simp only [setAw, resume_aw, upd]; grind)
                 | exact hr _ _ _
                 | exact id)
      exact ⟨fun hh => ih.1 (h2.1 hh), fun hh => ih.2.1 (h2.2.1 hh), fun hh => h2.2.2 (ih.2.2 hh)⟩

/-- **C53.** Once the awaited operation has completed and `start()` has returned, running the remaining
steps of `await_suspend` and of the completion in any order until none is left resumes the coroutine
(or tells it to stop). -/
theorem eventually_resumed {t0 : Nat} {s s' : St} (h : Reach (init t0) step s) {k : Nat}
    (h1 : (s.aw k).s ≠ .start) (h2 : (s.aw k).p ≠ .idle) (as : List Act)
    (ha : ∀ a ∈ as, internal a = true) (he : exec step s as = some s')
    (hq : ∀ a, internal a = true → step s' a = none) : s'.co ≠ .sus k := by
  intro hc
  have hk := internal_keeps (k := k) as s s' h ha he
  have h' := Reach.trans_exec as s s' h he
  have := not_stuck h' hc (hk.1 h1) (hk.2.1 h2)
  rw [hq (.starter k) rfl, hq (.comp k) rfl] at this
  simp at this

/-! ## Concrete executions meeting the hypotheses -/

/-- Two operations complete inside `start()`: the coroutine runs on with one `resume()` on the stack. -/
example : ∃ s, Reach (init 0) step s ∧
    (decide (s.co = .run 0) && decide (s.log = [(1, .error 9), (0, .value 7)]) &&
      decide (s.depth 0 = 1)) = true :=
  Reach.witness
    [.await, .complete 0 0 (.value 7), .comp 0, .comp 0, .startRet 0, .starter 0, .starter 0, .leave,
     .await, .complete 1 0 (.error 9), .comp 1, .comp 1, .startRet 1, .starter 1, .starter 1, .leave]
    (fun s : St => decide (s.co = .run 0) && decide (s.log = [(1, .error 9), (0, .value 7)]) &&
      decide (s.depth 0 = 1)) (by rfl)

/-- Thread 1 completes while thread 0 is inside `start()`: it waits, then resumes the coroutine. -/
example : ∃ s, Reach (init 0) step s ∧
    (decide (s.co = .run 1) && decide (s.log = [(0, .value 3)]) && decide (s.depth 0 = 0) &&
      decide (s.depth 1 = 1)) = true :=
  Reach.witness
    [.await, .complete 0 1 (.value 3), .comp 0, .comp 0, .startRet 0, .starter 0, .comp 0, .comp 0,
     .leave]
    (fun s : St => decide (s.co = .run 1) && decide (s.log = [(0, .value 3)]) &&
      decide (s.depth 0 = 0) && decide (s.depth 1 = 1)) (by rfl)

/-- ... and while it waits it is blocked by the awaiting thread. -/
example : ∃ s, Reach (init 0) step s ∧
    (decide ((s.aw 0).p = .spin) && (step s (.comp 0)).isNone && decide (0 < s.n)) = true :=
  Reach.witness [.await, .complete 0 1 (.value 3), .comp 0, .comp 0]
    (fun s : St => decide ((s.aw 0).p = .spin) && (step s (.comp 0)).isNone && decide (0 < s.n)) (by rfl)

/-- Later completion with `set_stopped` on the awaiting thread itself: the coroutine is stopped. -/
example : ∃ s, Reach (init 0) step s ∧
    (decide (s.co = .stopped 0) && decide (s.log = [(0, .stopped)])) = true :=
  Reach.witness
    [.await, .startRet 0, .starter 0, .complete 0 0 .stopped, .comp 0, .comp 0, .comp 0]
    (fun s : St => decide (s.co = .stopped 0) && decide (s.log = [(0, .stopped)])) (by rfl)

/-- The hypotheses of `eventually_resumed`: completed by thread 1 while `start` was running. -/
example : ∃ s, Reach (init 0) step s ∧
    (decide ((s.aw 0).s = .xchg) && decide ((s.aw 0).p = .load) && decide (s.co = .sus 0)) = true :=
  Reach.witness [.await, .complete 0 1 (.value 3), .startRet 0]
    (fun s : St => decide ((s.aw 0).s = .xchg) && decide ((s.aw 0).p = .load) &&
      decide (s.co = .sus 0)) (by rfl)

end Verif.Awaiter
