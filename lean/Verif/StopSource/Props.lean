import Verif.StopSource.Steps
import Mathlib.Tactic.ByContra
/-! # `inplace_stop_source` — property theorems C01–C04

All statements range over every reachable state of the concurrent model: any number of threads, any
number of callbacks, any interleaving, nested API calls from callbacks included. -/
namespace Verif.StopSource

/-! ## Specification vocabulary (independent of the model's helper functions) -/

/-- The event "some `request_stop()` call returned `true`". -/
def isTrueRet : Event → Bool
  | .reqRet _ true => true
  | _ => false

/-- The event "the function of callback `c` was entered (on any thread)". -/
def isInvokeOf (c : Cb) : Event → Bool
  | .invoke _ c' => c' == c
  | _ => false

/-- Thread `t` is currently inside the function of callback `c`. -/
def RunningOn (s : St) (t : Tid) (c : Cb) : Prop :=
  Frame.reqRunning c ∈ s.stk t ∨ Frame.addInline c ∈ s.stk t

theorem wins_eq (l : List Event) : wins l = l.countP isTrueRet := by
  induction l with
  | nil => rfl
  | cons e l ih => rcases e with _ | ⟨_, _ | _⟩ <;> simp [wins, isTrueRet, ih, List.countP_cons]; omega

theorem invs_eq (l : List Event) (c : Cb) : invs l c = l.countP (isInvokeOf c) := by
  induction l with
  | nil => rfl
  | cons e l ih =>
    rcases e with ⟨_, c'⟩ | ⟨_, _⟩
    · by_cases h : c' = c <;> simp [invs, isInvokeOf, ih, h]; omega
    · simp [invs, isInvokeOf, ih]

/-! ## C01 -/

/-- At most one `request_stop()` call ever returns `true`. -/
theorem C01_one_winner (s : St) (h : Reachable s) : s.log.countP isTrueRet ≤ 1 :=
  wins_eq s.log ▸ (inv_reach h).winsLe

/-- Once any `request_stop()` call has returned, with either result, stop is requested. -/
theorem C01_stop_after_return (s : St) (h : Reachable s) (t : Tid) (b : Bool)
    (hr : Event.reqRet t b ∈ s.log) : s.stop = true := (inv_reach h).retStop t b hr

theorem stop_mono {s s' : St} {a : Act} (hs : step s a = some s') (h : s.stop = true) :
    s'.stop = true := by
  cases a <;> simp only [step, adv, touch] at hs <;> (repeat' split at hs) <;>
    first | cases hs; done | (cases hs; exact h) | (cases hs; rfl)

/-- `stop_requested()` never goes back to `false`, whatever happens afterwards. -/
theorem C01_stop_permanent (s s' : St) (acts : List Act) (he : exec step s acts = some s')
    (h : s.stop = true) : s'.stop = true := by
  induction acts generalizing s with
  | nil => simp [exec] at he; exact he ▸ h
  | cons a as ih =>
    simp only [exec] at he
    split at he
    · rename_i s1 h1
      exact ih s1 he (stop_mono h1 h)
    · cases he

/-- When the stop bit is set, the winner exists: either one call has already returned `true`, or the
    call that will is still in progress on exactly one thread. -/
theorem C01_winner_exists (s : St) (h : Reachable s) (hst : s.stop = true) :
    s.log.countP isTrueRet = 1 ∨ ∃ t f, f ∈ s.stk t ∧ f.active = true := by
  rw [← wins_eq]
  revert hst
  refine Reach.inv' (fun s => s.stop = true → wins s.log = 1 ∨ ∃ t f, f ∈ s.stk t ∧ f.active = true)
    (by simp [init]) ?_ s h
  intro s a s' hr ih hs hst
  have hinv := inv_reach hr
  -- stacks only change on one thread, and only the `reqLoop` frame ends the winner's call
  have key : ∀ (t : Tid) (f f' : Frame) (r : List Frame), s.stk t = f :: r →
      (f.active = true → f'.active = true) → (∃ t f, f ∈ s.stk t ∧ f.active = true) →
      ∃ t1 g, g ∈ upd s.stk t (f' :: r) t1 ∧ g.active = true := by
    rintro t f f' r hk hff ⟨t1, g, hg, hga⟩
    by_cases ht : t1 = t
    · subst ht
      rw [hk] at hg
      rcases List.mem_cons.1 hg with rfl | hg
      · exact ⟨t1, f', by simp, hff hga⟩
      · exact ⟨t1, g, by simp [hg], hga⟩
    · exact ⟨t1, g, by rw [upd_other _ _ ht]; exact hg, hga⟩
  have keyp : ∀ (t : Tid) (f : Frame) (r : List Frame), s.stk t = f :: r →
      (f.active = false) → (∃ t f, f ∈ s.stk t ∧ f.active = true) →
      ∃ t1 g, g ∈ upd s.stk t r t1 ∧ g.active = true := by
    rintro t f r hk hff ⟨t1, g, hg, hga⟩
    by_cases ht : t1 = t
    · subst ht
      rw [hk] at hg
      rcases List.mem_cons.1 hg with rfl | hg
      · simp_all
      · exact ⟨t1, g, by simp [hg], hga⟩
    · exact ⟨t1, g, by rw [upd_other _ _ ht]; exact hg, hga⟩
  have push : ∀ (t : Tid) (f : Frame), (∃ t f, f ∈ s.stk t ∧ f.active = true) →
      ∃ t1 g, g ∈ upd s.stk t (f :: s.stk t) t1 ∧ g.active = true := by
    rintro t f ⟨t1, g, hg, hga⟩
    by_cases ht : t1 = t
    · subst ht; exact ⟨t1, g, by simp [hg], hga⟩
    · exact ⟨t1, g, by rw [upd_other _ _ ht]; exact hg, hga⟩
  cases a with
  | callReq t => simp only [step] at hs; split at hs <;> cases hs; exact (ih hst).imp id (push t _)
  | callAdd t c => simp only [step] at hs; split at hs <;> cases hs; exact (ih hst).imp id (push t _)
  | callRm t c => simp only [step] at hs; split at hs <;> cases hs; exact (ih hst).imp id (push t _)
  | dropInline t c => simp only [step] at hs; split at hs <;> cases hs; exact ih hst
  | ret t =>
    simp only [step] at hs
    split at hs
    · rename_i c r hk; cases hs; exact (ih hst).imp id (key t _ _ _ hk (by simp))
    · rename_i c r hk; cases hs; exact (ih hst).imp id (keyp t _ _ hk (by simp))
    · cases hs
  | adv t =>
    simp only [step] at hs
    cases hk : s.stk t with
    | nil => simp [adv, hk] at hs
    | cons f r =>
      cases f with
      | reqLoop =>
        simp only [adv, hk, touch] at hs
        split at hs
        · cases hs
          have := (hinv.act t .reqLoop (by simp [hk]) rfl).2
          exact Or.inl (by simp [wins, this])
        · rename_i c cs _; cases hs; exact Or.inr ⟨t, .reqExec c, by simp, rfl⟩
      | reqTry =>
        simp only [adv, hk] at hs
        split at hs
        · cases hs
          rename_i h0
          simp only [wins]
          exact (ih h0).imp (by simp [wins]) (keyp t _ _ hk (by simp))
        · split at hs
          · cases hs
          · cases hs; exact Or.inr ⟨t, .reqWon, by simp, rfl⟩
      | _ =>
        simp only [adv, hk, touch] at hs <;> (repeat' split at hs) <;>
          first
          | (cases hs; done)
          | (cases hs; exact (ih hst).imp id (key t _ _ _ hk (by simp)))
          | (cases hs; exact (ih hst).imp id (keyp t _ _ hk (by simp)))

/-! ## C02 -/

/-- A callback's function is entered at most once. -/
theorem C02_at_most_once (s : St) (h : Reachable s) (c : Cb) :
    s.log.countP (isInvokeOf c) ≤ 1 := invs_eq s.log c ▸ (inv_reach h).invLe c

/-- … and never before stop has been requested. -/
theorem C02_only_after_request (s : St) (h : Reachable s) (t : Tid) (c : Cb)
    (hi : Event.invoke t c ∈ s.log) : s.stop = true := (inv_reach h).invStop t c hi

/-! ## C03 -/

/-- No access to a destroyed callback object, in any execution. -/
theorem C03_no_use_after_destroy (s : St) (h : Reachable s) : s.ub = false := (inv_reach h).noub

/-- After the destructor of `c` returned on thread `u`, `c`'s function is running on no other
    thread. -/
theorem C03_not_running_elsewhere (s : St) (h : Reachable s) (c : Cb) (u t : Tid)
    (hd : s.life c = .dead u) (hr : RunningOn s t c) : t = u := by
  have hi := inv_reach h
  rcases hr with hr | hr
  · rcases (hi.fRun t c hr).2.2.2.2 with ⟨_, h2⟩ | ⟨_, h2⟩
    · simp [hd] at h2
    · rw [hd] at h2; injection h2 with h3; exact h3.symm
  · have := (hi.fAddInline t c hr).1
    rw [hd] at this; cases this

theorem dead_step {s s' : St} {a : Act} {c : Cb} {u : Tid} (h : Inv s) (hs : step s a = some s')
    (hd : s.life c = .dead u) : s'.life c = .dead u ∧ invs s'.log c = invs s.log c := by
  cases a with
  | callReq t => simp only [step] at hs; split at hs <;> cases hs; exact ⟨hd, rfl⟩
  | callAdd t c' => simp only [step] at hs; split at hs <;> cases hs; grind
  | callRm t c' => simp only [step] at hs; split at hs <;> cases hs; grind
  | dropInline t c' => simp only [step] at hs; split at hs <;> cases hs; grind
  | ret t =>
    simp only [step] at hs
    split at hs
    · cases hs; exact ⟨hd, rfl⟩
    · rename_i c' r hk; have := h.fAddInline t c' (by simp [hk]); cases hs; clear h; grind
    · cases hs
  | adv t =>
    simp only [step] at hs
    cases hk : s.stk t with
    | nil => simp [adv, hk] at hs
    | cons f r =>
      cases f with
      | reqExec c' =>
        have := h.fExec t c' (by simp [hk])
        simp only [adv, hk, touch] at hs; cases hs; clear h; grind
      | addTry c' =>
        have := h.fAddTry t c' (by simp [hk])
        simp only [adv, hk, touch] at hs; clear h
        split at hs
        · cases hs; grind
        · split at hs <;> cases hs; grind
      | addLocked c' =>
        have := h.fAddLocked t c' (by simp [hk])
        simp only [adv, hk, touch] at hs; cases hs; clear h; grind
      | rmLocked c' =>
        have := h.fRmLocked t c' (by simp [hk])
        simp only [adv, hk, touch] at hs; clear h; split at hs <;> cases hs <;> grind
      | rmSelf c' =>
        have := h.fRmSelf t c' (by simp [hk])
        simp only [adv, hk, touch] at hs; cases hs; clear h; grind
      | rmWait c' =>
        have := h.fRmWait t c' (by simp [hk])
        simp only [adv, hk, touch] at hs; clear h; split at hs <;> cases hs; grind
      | _ =>
        simp only [adv, hk, touch] at hs <;> clear h <;> (repeat' split at hs) <;>
          first | (cases hs; done) | (cases hs; exact ⟨hd, rfl⟩) | (cases hs; grind)

/-- After the destructor of `c` returned, `c`'s function is never started again, whatever any thread
    does: in every continuation of the execution the number of invocations of `c` is unchanged. -/
theorem C03_never_started_after (s s' : St) (acts : List Act) (h : Reachable s) (c : Cb) (u : Tid)
    (hd : s.life c = .dead u) (he : exec step s acts = some s') :
    s'.log.countP (isInvokeOf c) = s.log.countP (isInvokeOf c) := by
  rw [← invs_eq, ← invs_eq]
  induction acts generalizing s with
  | nil => simp [exec] at he; rw [he]
  | cons a as ih =>
    simp only [exec] at he
    split at he
    · rename_i s1 h1
      have hd1 := dead_step (inv_reach h) h1 hd
      rw [ih s1 (.tail a h h1) hd1.1 he, hd1.2]
    · cases he

/-- A destructor that waits does so only for another thread that is executing this very callback
    (so it cannot wait for itself or for nothing). -/
theorem C03_waits_only_for_running (s : St) (h : Reachable s) (t : Tid) (c : Cb)
    (hw : Frame.rmWait c ∈ s.stk t) (hc : s.completed c = false) :
    ∃ t' f, t' ≠ t ∧ f ∈ s.stk t' ∧ f.cur = some c := by
  have hi := inv_reach h
  have hf := hi.fRmWait t c hw
  rcases hi.regs c (by simp [hf]) hf.2.1 with h1 | ⟨t', f, h1, h2⟩
  · simp_all
  · refine ⟨t', f, ?_, h1, h2⟩
    rintro rfl
    exact hf.2.2 (hi.act t' f h1 (active_of_cur h2)).1

/-! ## C04 -/

/-- When `request_stop()` has returned `true`, every callback whose construction completed and whose
    destruction has not begun has been invoked exactly once. -/
theorem C04_none_missed (s : St) (h : Reachable s) (t : Tid) (hr : Event.reqRet t true ∈ s.log)
    (c : Cb) (ha : s.life c = .alive ∨ s.life c = .aliveInline) :
    s.log.countP (isInvokeOf c) = 1 := by
  rw [← invs_eq]
  have hi := inv_reach h
  have hw : wins s.log ≠ 0 := by
    rw [wins_eq]
    have := List.countP_pos_iff.2 (⟨_, hr, rfl⟩ : ∃ a ∈ s.log, isTrueRet a = true)
    omega
  rcases ha with ha | ha
  · have hcb := hi.retDone hw
    have hl : s.linked c = false := by
      have := hi.list c; simp [hcb] at this; exact this
    rcases hi.regs c (by simp [ha]) hl with h1 | ⟨t', f, h1, h2⟩
    · exact h1.2.2
    · exact absurd (hi.act t' f h1 (active_of_cur h2)).2 hw
  · exact (hi.cInline c ha).2

/-- A callback constructed after stop was requested has been invoked by the time its constructor
    returned; more generally every live callback not registered with the source was invoked. -/
theorem C04_inline (s : St) (h : Reachable s) (c : Cb) (ha : s.life c = .aliveInline) :
    s.log.countP (isInvokeOf c) = 1 := by
  rw [← invs_eq]; exact ((inv_reach h).cInline c ha).2

/-- If stop was already requested when the constructor is entered, the callback does not end up
    registered-and-pending: as soon as its constructor has returned it has been invoked. -/
theorem C04_constructed_after_stop (s s' : St) (t : Tid) (c : Cb) (r : List Frame)
    (h : Reachable s) (hk : s.stk t = .addTry c :: r) (hst : s.stop = true)
    (hs : step s (.adv t) = some s') : Event.invoke t c ∈ s'.log := by
  simp only [step, adv, hk, hst] at hs
  simp at hs
  rw [← hs]; simp

/-! ## Concrete executions meeting the hypotheses -/

/-- Thread 0 registers callbacks 7 and 8; thread 1 requests stop and, inside callback 8, thread 1
    destroys 8 itself; meanwhile thread 0 destroys 7 after it ran; a late callback 9 runs inline. -/
def demo : List Act :=
  [.callAdd 0 7, .adv 0, .adv 0, .callAdd 0 8, .adv 0, .adv 0,
   .callReq 1, .adv 1, .adv 1, .adv 1, .adv 1,             -- 8 is running on thread 1
   .callRm 1 8, .adv 1, .adv 1, .adv 1, .adv 1,            -- self-destruction
   .ret 1, .adv 1, .adv 1, .adv 1, .adv 1,                 -- 7 is running
   .callRm 0 7, .adv 0, .adv 0, .adv 0,                    -- thread 0 waits for 7
   .ret 1, .adv 1, .adv 1, .adv 0,                         -- 7 completes, destructor returns
   .callAdd 0 9, .adv 0, .ret 0,                           -- invoked inline
   .callReq 0, .adv 0,                                     -- returns false
   .adv 1, .adv 1]                                         -- returns true

example : ((exec step init demo).map fun s =>
    (s.log, s.life 7, s.life 8, s.life 9, s.ub, s.stop)) =
    some ([.reqRet 1 true, .reqRet 0 false, .invoke 0 9, .invoke 1 7, .invoke 1 8],
      .dead 0, .dead 1, .aliveInline, false, true) := by rfl

example : ∃ s, Reachable s ∧ s.life 8 = .dead 1 ∧ RunningOn s 1 8 :=
  ⟨_, .of_exec (demo.take 16) rfl, rfl, Or.inl (by decide)⟩

example : ∃ s, Reachable s ∧ s.life 8 = .dead 1 ∧ Event.invoke 1 8 ∈ s.log ∧
    Event.reqRet 1 true ∈ s.log ∧ s.life 9 = .aliveInline :=
  ⟨_, .of_exec demo rfl, rfl, by decide, by decide, rfl⟩

example : ∃ s, Reachable s ∧ Frame.rmWait 7 ∈ s.stk 0 ∧ s.completed 7 = false :=
  ⟨_, .of_exec (demo.take 25) rfl, by decide, rfl⟩

/-- A registered, still alive callback that was invoked by a completed `request_stop()`. -/
example : ∃ s, Reachable s ∧ Event.reqRet 1 true ∈ s.log ∧ s.life 3 = .alive :=
  ⟨_, .of_exec [.callAdd 0 3, .adv 0, .adv 0, .callReq 1, .adv 1, .adv 1, .adv 1, .adv 1, .ret 1,
    .adv 1, .adv 1, .adv 1, .adv 1] rfl, by decide, rfl⟩

example : ∃ s r, Reachable s ∧ s.stk 0 = .addTry 3 :: r ∧ s.stop = true :=
  ⟨_, [], .of_exec [.callReq 1, .adv 1, .callAdd 0 3] rfl, rfl, rfl⟩

end Verif.StopSource
