import Verif.Timed.Inv2
import Mathlib.Tactic.ByContra
/-!
# C41 — timed operations complete exactly once, never early, and in deadline order

Theorems about every reachable state of the model in `Model.lean`: any number of operations with any deadlines, any
interleaving of `start()`, stop requests, clock ticks, the run thread and the context's shutdown.
-/
namespace Verif.Timed

/-- **C41 (at most once, no use after completion).** An operation completes at most once, and no thread touches it
after it completed. -/
theorem C41_once (s : St) (h : Reachable s) (i : Nat) :
    s.log.countP (fun e => match e with | .done j _ _ => j == i | _ => false) ≤ 1 ∧ s.bad = false := by
  refine ⟨?_, (inv_reach h).bd⟩
  have h1 := (inv_reach h).lgC i
  have h2 : s.log.countP (Ev.isDone i) = s.log.countP (fun e => match e with | .done j _ _ => j == i | _ => false) := by
    congr 1
  rw [← h2, h1]; split <;> omega

/-- **C41 (never early).** A value is delivered at a time no earlier than the deadline given to `schedule_at`. -/
theorem C41_not_early (s : St) (h : Reachable s) (i t : Nat) (hv : Ev.done i .value t ∈ s.log) : s.dl i ≤ t :=
  (inv_reach h).lgV i t hv

/-- The time recorded with a completion is the clock at that moment, and the deadline of a started operation never
changes. -/
theorem C41_log_time (s s' : St) (a : Act) (hs : step s a = some s') :
    (∀ i o t, s'.log = s.log ++ [.done i o t] → t = s.now) ∧ s.now ≤ s'.now ∧
    (∀ i, s.sp i ≠ .idle → s'.dl i = s.dl i) ∧ (∀ i d, a = .start i d → s'.dl i = d) := by
  cases a with
  | tick => simp only [step] at hs; cases hs; simp
  | start i d =>
    simp only [step] at hs; split at hs <;> cases hs
    rename_i hi
    refine ⟨by simp, by simp, ?_, ?_⟩
    · intro j hj; have : j ≠ i := by rintro rfl; exact hj hi
      simp [upd_other _ _ this]
    · intro j e he; cases he; simp
  | reqStop i => simp only [step] at hs; split at hs <;> cases hs; simp
  | cbBegin i => simp only [step] at hs; split at hs <;> cases hs; simp
  | ctxStop => simp only [step] at hs; cases hs; simp
  | starter i b =>
    simp only [step] at hs; unfold stepStarter at hs
    split at hs <;> (try split at hs) <;> cases hs <;> simp [St.touch, St.complete] <;> grind
  | stopper i b =>
    simp only [step] at hs; unfold stepStopper at hs
    split at hs <;> (try split at hs) <;> cases hs <;> simp [St.touch, St.complete] <;> grind
  | run nul =>
    simp only [step] at hs; unfold stepRun at hs
    split at hs <;> (repeat' split at hs) <;> cases hs <;> simp [St.release, St.touch, St.complete] <;> grind

/-- **C41 (stopped has a cause).** `stopped` is delivered only if stop was requested on the operation's token or on
the context. -/
theorem C41_stopped_cause (s : St) (h : Reachable s) (i t : Nat) (hv : Ev.done i .stopped t ∈ s.log) :
    s.tok i = true ∨ s.stopReq = true :=
  (inv_reach h).lgS i t hv

theorem mem_mid {α : Type} {a b p q : List α} {x : α} (h : a = p ++ x :: q) : x ∈ a := by rw [h]; simp

/-- **C41 (order).** If `i` and `j` both complete with a value, `i` first, and the context had accepted `j` before `i`
completed, then `i` has the earlier deadline, or the same deadline and the smaller submission number. -/
theorem C41_order (s : St) (h : Reachable s) (pre post : List Ev) (i j t u m n : Nat)
    (hl : s.log = pre ++ Ev.done i .value t :: post) (hj : Ev.done j .value u ∈ post)
    (hi : Ev.accept i m ∈ s.log) (hja : Ev.accept j n ∈ pre) :
    s.dl i < s.dl j ∨ (s.dl i = s.dl j ∧ m < n) := by
  have h1 := inv_reach h
  have h2 := inv2_reach h
  obtain ⟨p, q, hp, hq⟩ := h2.o3 pre i t post hl
  have hne : j ≠ i := by
    rintro rfl
    have hc := h1.lgC j
    rw [hl, List.countP_append, List.countP_cons_of_pos (by simp [Ev.isDone])] at hc
    have : 0 < post.countP (Ev.isDone j) := List.countP_pos_iff.2 ⟨_, hj, by simp [Ev.isDone]⟩
    cases hd : s.dead j <;> rw [hd] at hc <;> simp at hc <;> omega
  -- the firing of `j`
  obtain ⟨p1, p2, hp12⟩ := List.append_of_mem hj
  have hl2 : s.log = (pre ++ Ev.done i .value t :: p1) ++ Ev.done j .value u :: p2 := by rw [hl, hp12]; simp
  obtain ⟨p', q', hp', hq'⟩ := h2.o3 _ j u p2 hl2
  -- `j` fires after `i`
  have hnf : Ev.fire j ∉ p ∧ Ev.cancel j ∉ p := by
    by_contra hx
    have hx : ∃ e ∈ p, e.leaves j = true := by
      by_cases hf : Ev.fire j ∈ p
      · exact ⟨_, hf, by simp [Ev.leaves]⟩
      · by_cases hc : Ev.cancel j ∈ p
        · exact ⟨_, hc, by simp [Ev.leaves]⟩
        · exact absurd ⟨hf, hc⟩ hx
    obtain ⟨e, he, hel⟩ := hx
    -- `fire i` is not in `q'`, so it is in `p'`; hence `p` is a prefix of `p'`
    have hcnt := h2.o1 j
    rw [hl2, hp'] at hcnt
    have heq : p ++ Ev.fire i :: (q ++ Ev.done i .value t :: p1) = p' ++ Ev.fire j :: q' := by
      rw [← hp', hp]; simp
    have hcases := List.append_eq_append_iff.1 heq
    have hep : e ∈ p' := by
      rcases hcases with ⟨as, h3, h4⟩ | ⟨bs, h3, h4⟩
      · rw [h3]; simp [he]
      · -- `p = p' ++ bs`, `fire j :: q' = bs ++ fire i :: …`: then `fire i ∈ q'`
        cases bs with
        | nil =>
          simp at h4; exact absurd h4.1 hne
        | cons b bs =>
          simp at h4
          have : Ev.fire i ∈ q' := by rw [h4.2]; simp
          have := hq' _ this
          simp [Ev.quiet] at this
    have h5 : 0 < p'.countP (Ev.leaves j) := List.countP_pos_iff.2 ⟨e, hep, hel⟩
    rw [List.countP_append, List.countP_append, List.countP_cons_of_pos (by simp [Ev.leaves])] at hcnt
    omega
  have hjp : Ev.accept j n ∈ p := by
    rw [hp, List.mem_append] at hja
    rcases hja with hja | hja
    · exact hja
    · rcases List.mem_cons.1 hja with hja | hja
      · cases hja
      · have := hq _ hja; simp [Ev.quiet] at this
  have hb := h1.ord p i (q ++ Ev.done i .value t :: post) j n (by rw [hl, hp]; simp) hjp hnf.1 hnf.2 hne
  have hni := (h1.acc i m hi).1
  have hnj := (h1.acc j n (by rw [hl]; simp [hja])).1
  simp only [before, Bool.or_eq_true, Bool.and_eq_true, Bool.not_eq_true', decide_eq_true_eq, decide_eq_false_iff_not] at hb
  omega

/-- Nothing can happen without the environment (a clock tick, a new `start()`, a new stop request). -/
def Stuck (s : St) : Prop :=
  (∀ i b, step s (.starter i b) = none) ∧ (∀ i, step s (.cbBegin i) = none) ∧
  (∀ i b, step s (.stopper i b) = none) ∧ (∀ b, step s (.run b) = none)

theorem stopper_enabled {s : St} {i : Nat} (h : (s.cb i).running = true) : step s (.stopper i false) ≠ none := by
  simp only [step]
  unfold stepStopper
  cases hc : s.cb i with
  | sub p => cases p <;> simp <;> split <;> simp
  | call => simp; split <;> simp
  | _ => simp [hc, Cb.running] at h

/-- **C41 (no deadlock).** When nothing can happen by itself: every `start()` has returned, no stop callback is
running or waiting to run, and the run thread has exited or is waiting for a time that has not come, with no
notification and no shutdown pending. -/
theorem C41_no_deadlock (s : St) (h : Reachable s) (hst : Stuck s) :
    (∀ i, s.sp i = .idle ∨ s.sp i = .done) ∧ (∀ i, (s.cb i).running = false ∧ ¬ (s.tok i = true ∧ s.cb i = .armed)) ∧
    (s.run = .exit ∨ ∃ d, s.run = .wait d ∧ s.now < d ∧ s.ready = false ∧ s.stopReq = false) := by
  have hi := inv_reach h
  have hi2 := inv2_reach h
  obtain ⟨h1, h2, h3, h4⟩ := hst
  have hcb : ∀ i, (s.cb i).running = false := by
    intro i
    cases hc : (s.cb i).running with
    | false => rfl
    | true => exact absurd (h3 i false) (stopper_enabled hc)
  have hsp : ∀ i, s.sp i = .idle ∨ s.sp i = .done := by
    intro i
    have := h1 i false
    have hc := hcb i
    simp only [step] at this
    unfold stepStarter at this
    cases hs : s.sp i with
    | idle => simp
    | done => simp
    | sub p => cases p <;> simp [hs, hc] at this <;> split at this <;> simp at this
    | emplace => simp [hs] at this; split at this <;> simp at this
    | cas => simp [hs] at this; split at this <;> simp at this
    | inl => simp [hs, hc] at this
    | reset => simp [hs, hc] at this
  refine ⟨hsp, fun i => ⟨hcb i, fun hx => ?_⟩, ?_⟩
  · have := h2 i; simp [step, hx] at this
  · have hr := h4 true
    have hr' := h4 false
    simp only [step] at hr hr'
    unfold stepRun at hr hr'
    cases hs : s.run with
    | exit => simp
    | wait d =>
      simp only [hs] at hr
      split at hr
      · cases hr
      · rename_i hn
        refine .inr ⟨d, rfl, ?_⟩
        simp only [not_or] at hn
        exact ⟨by omega, by simpa using hn.1, by simpa using hn.2.1⟩
    | popping o =>
      simp only [hs] at hr hr'
      simp at hr hr'
      cases ho : o with
      | true => simp [ho] at hr
      | false =>
        exfalso
        subst ho
        have hw := hi2.w2 hs
        have hq : popHead s.q = none := by
          cases hx : popHead s.q with
          | none => rfl
          | some x =>
            obtain ⟨c, q⟩ := x
            rw [hx] at hr'
            cases c <;> simp at hr'
            split at hr' <;> simp at hr'
        match hqq : s.q with
        | [] => simp [hqq] at hr
        | [(c, b)] =>
          have := hw (c, b) (by simp [hqq]); simp at this; subst this
          rw [hqq] at hq; simp [popHead] at hq
        | (c, b) :: (d, b') :: q =>
          have h5 := hw (c, b) (by simp [hqq])
          have h6 := hw (d, b') (by simp [hqq])
          simp at h5 h6; subst h5; subst h6
          rw [hqq] at hq; simp [popHead] at hq
    | close =>
      simp only [hs] at hr
      split at hr
      · cases hr
      · rename_i hn
        exfalso
        have hfl := hi.flL
        have : s.fl ≠ [] := by intro hx; rw [hx] at hfl; exact hn hfl
        obtain ⟨c, hc⟩ := List.exists_mem_of_ne_nil _ this
        cases c with
        | sched i =>
          have := (hi.flS i).1 hc
          rcases hsp i with hx | hx <;> simp [hx, SPc.counted] at this
        | stop i =>
          have := (hi.flT i).1 hc
          have h5 := hcb i
          cases hx : s.cb i <;> simp [hx, Cb.counted, Cb.running] at this h5
    | fin i o k => simp [hs, hcb i] at hr
    | due => simp only [hs] at hr; split at hr <;> (try split at hr) <;> simp at hr
    | drain => simp only [hs] at hr; split at hr <;> simp at hr
    | _ => simp [hs] at hr

/-- An operation none of whose references is anywhere any more has completed. -/
theorem settled {s : St} (h : Inv s) {i : Nat} (hsp : s.sp i = .done) (hcb : (s.cb i).running = false)
    (hss : s.ss i ≠ .queued ∧ s.ss i ≠ .heap) (hts : s.ts i ≠ .queued) (hr : s.run.hs = none ∧ s.run.ht = none ∧ s.run.f = none) :
    s.dead i = true := by
  have h1 := h.alive i
  have h2 := h.spDone i hsp
  have h3 := (h.spSub i).2
  have h4 := h.heldS i
  have h5 := h.heldT i
  have h6 := (h.cbSub i).2
  have h7 := h.tsHeap i
  cases hx : s.ss i with
  | none => exact h2 hx
  | sub => have := h3 hx; simp [hsp] at this
  | queued => exact absurd hx hss.1
  | heap => exact absurd hx hss.2
  | held => have := h4.1 hx; simp [hr.1] at this
  | gone =>
    have hl : (s.ts i).live = false := by
      cases hy : s.ts i with
      | none => rfl
      | gone => rfl
      | sub => have := h6 hy; rcases this with h8 | h8 | h8 <;> simp [h8, Cb.running] at hcb
      | queued => exact absurd hy hts
      | heap => exact absurd hy h7
      | held => have := h5.1 hy; simp [hr.2.1] at this
    rcases h1 hx hl with h8 | h8 | h8 | h8
    · exact h8
    · simp [hr.2.2] at h8
    · simp [hsp] at h8
    · simp [h8, Cb.running] at hcb

theorem inv_late {s : St} (h : Reachable s) : ∀ i, s.late i = true → s.tok i = true := by
  refine Reach.inv (fun s : St => ∀ i, s.late i = true → s.tok i = true) (by simp [init]) ?_ s h
  intro s a s' hi hs i
  cases a with
  | tick => simp only [step] at hs; cases hs; exact hi i
  | start j d => simp only [step] at hs; split at hs <;> cases hs; exact hi i
  | reqStop j =>
    simp only [step] at hs; split at hs <;> cases hs
    have := hi i
    by_cases he : i = j
    · subst he; simp
    · simpa [upd_other _ _ he] using this
  | cbBegin j => simp only [step] at hs; split at hs <;> cases hs; exact hi i
  | ctxStop => simp only [step] at hs; cases hs; exact hi i
  | starter j b =>
    simp only [step] at hs; unfold stepStarter at hs
    split at hs <;> (try split at hs) <;> cases hs <;> exact hi i
  | stopper j b =>
    simp only [step] at hs; unfold stepStopper at hs
    split at hs <;> (try split at hs) <;> cases hs <;> exact hi i
  | run nul =>
    simp only [step] at hs; unfold stepRun at hs
    split at hs <;> (repeat' split at hs) <;> cases hs <;> exact hi i

/-- **C41 (completes).** Whenever nothing can happen by itself and the context was not stopped: an operation whose
deadline has come has completed, and so has one on which stop was requested after its `start()` had returned —
whatever its deadline. Missing (hypothesis `hq`): that the command queue is empty at such a time; see
`C41_wakeup_false`. -/
theorem C41_completes_partial (s : St) (h : Reachable s) (hst : Stuck s) (hq : s.q = []) (hns : s.stopReq = false)
    (i : Nat) (hi : s.sp i ≠ .idle) (hd : s.dl i ≤ s.now ∨ s.late i = true) :
    ∃ o t, Ev.done i o t ∈ s.log := by
  have h1 := inv_reach h
  have h2 := inv2_reach h
  obtain ⟨a1, a2, a3⟩ := C41_no_deadlock s h hst
  have hsp : s.sp i = .done := by rcases a1 i with hx | hx; exact absurd hx hi; exact hx
  rcases a3 with hx | ⟨d, hx, hlt, _, _⟩
  · have := h1.clR; rw [hx] at this
    have := h1.clQ (.inl this)
    simp [hns] at this
  · have hdead : s.dead i = true := by
      refine settled h1 hsp (a2 i).1 ⟨?_, ?_⟩ ?_ (by simp [hx, RPc.hs, RPc.ht, RPc.f])
      · intro hc; have := (h1.qS i).2 hc; simp [hq] at this
      · intro hc
        have hm := (h1.hM i).2 hc
        have hw := h2.w1 d hx i hm
        rcases hd with hd | hd
        · omega
        · -- the stop command has been processed
          have hcl : s.closed = false := by rw [h1.clR, hx]; rfl
          have hts : s.ts i ≠ .queued := by intro hc; have := (h1.qT i).2 hc; simp [hq] at this
          have hlt3 := h1.lt3 i hcl hd
          have htok : s.tok i = true := by
            by_cases ht : s.ts i = .none
            · exact (inv_late h i hd)
            · exact h1.tk1 i (.inl ht)
          have hcb := a2 i
          have hoff := h1.cbOff i
          have hdd := h1.dead1 i
          have hran := h1.cbMid i
          have hs1 := (h1.cbSub i).2
          have hs2 := h1.tsHeap i
          cases hy : s.cb i with
          | off =>
            rcases hoff hy with h5 | h5 | h5
            · simp [hsp] at h5
            · simp [hsp] at h5
            · have := (hdd h5).1; simp [hc, Ref.live] at this
          | armed => exact hcb.2 ⟨htok, hy⟩
          | call => simp [hy, Cb.running] at hcb
          | sub p => simp [hy, Cb.running] at hcb
          | ran =>
            cases hz : s.ts i with
            | none => exact hran (.inr (.inr hy)) hz
            | sub => have := hs1 hz; simp [hy] at this
            | queued => exact hts hz
            | heap => exact hs2 hz
            | held => exact (hlt3 (.inl hz)).2 hc
            | gone => exact (hlt3 (.inr hz)).2 hc
      · intro hc; have := (h1.qT i).2 hc; simp [hq] at this
    have hc := h1.lgC i
    rw [hdead] at hc
    have : 0 < s.log.countP (Ev.isDone i) := by rw [hc]; simp
    obtain ⟨e, he, hed⟩ := List.countP_pos_iff.1 this
    cases e <;> simp [Ev.isDone] at hed
    subst hed
    exact ⟨_, _, he⟩

/-- **C41 (shutdown).** When the run thread has exited and nothing more happens: if its command queue was empty, every
operation that was started has completed. Missing: `hq`; see `C41_shutdown_false`. -/
theorem C41_shutdown_partial (s : St) (h : Reachable s) (hst : Stuck s) (hx : s.run = .exit) (hq : s.q = [])
    (i : Nat) (hi : s.sp i ≠ .idle) : ∃ o t, Ev.done i o t ∈ s.log := by
  have h1 := inv_reach h
  have h2 := inv2_reach h
  obtain ⟨a1, a2, a3⟩ := C41_no_deadlock s h hst
  have hsp : s.sp i = .done := by rcases a1 i with hx | hx; exact absurd hx hi; exact hx
  have hdead : s.dead i = true := by
    refine settled h1 hsp (a2 i).1 ⟨?_, ?_⟩ ?_ (by simp [hx, RPc.hs, RPc.ht, RPc.f])
    · intro hc; have := (h1.qS i).2 hc; simp [hq] at this
    · intro hc; have := (h1.hM i).2 hc; simp [h2.w3 hx] at this
    · intro hc; have := (h1.qT i).2 hc; simp [hq] at this
  have hc := h1.lgC i
  rw [hdead] at hc
  have : 0 < s.log.countP (Ev.isDone i) := by rw [hc]; simp
  obtain ⟨e, he, hed⟩ := List.countP_pos_iff.1 this
  cases e <;> simp [Ev.isDone] at hed
  subst hed
  exact ⟨_, _, he⟩

/-- **C41 (the context may be destroyed).** Once the run thread has exited no other thread is between its increment
and its decrement of the in-flight counter: a submission that the context accepted no longer uses it. -/
theorem C41_exit_safe (s : St) (h : Reachable s) (hx : s.run = .exit) (i : Nat) (p : Sub)
    (hp : s.sp i = .sub p ∨ s.cb i = .sub p) : p = .add ∨ p = .closed ∨ p = .fin := by
  have h1 := inv_reach h
  have hc : s.closed = true := by rw [h1.clR, hx]; rfl
  have hf := h1.flC hc
  rcases hp with hp | hp
  · have := (h1.flS i); rw [hf, hp] at this
    cases p <;> simp_all [SPc.counted, Sub.counted]
  · have := (h1.flT i); rw [hf, hp] at this
    cases p <;> simp_all [Cb.counted, Sub.counted]

/-- Once the run thread has exited, an operation still in the command queue never completes. -/
theorem C41_lost_forever (s s' : St) (h : Reachable s) (hx : s.run = .exit) (i : Nat)
    (hq : Cmd.sched i ∈ s.q.map Prod.fst) (hr : Reach s step s') : ∀ o t, Ev.done i o t ∉ s'.log := by
  have key : Reachable s' ∧ s'.run = .exit ∧ Cmd.sched i ∈ s'.q.map Prod.fst := by
    induction hr with
    | refl => exact ⟨h, hx, hq⟩
    | tail a hr hs ih =>
      rename_i s1 s2
      obtain ⟨b1, b2, b3⟩ := ih
      have h1 := inv_reach b1
      have hc : s1.closed = true := by rw [h1.clR, b2]; rfl
      have hf := h1.flC hc
      have e1 := h1.flS
      have e2 := h1.flT
      rw [hf] at e1 e2
      refine ⟨.tail a b1 hs, ?_⟩
      cases a with
      | tick => simp only [step] at hs; cases hs; exact ⟨b2, b3⟩
      | start j d => simp only [step] at hs; split at hs <;> cases hs; exact ⟨b2, b3⟩
      | reqStop j => simp only [step] at hs; split at hs <;> cases hs; exact ⟨b2, b3⟩
      | cbBegin j => simp only [step] at hs; split at hs <;> cases hs; exact ⟨b2, b3⟩
      | ctxStop => simp only [step] at hs; cases hs; exact ⟨b2, b3⟩
      | starter j b =>
        have e1 := e1 j
        simp only [step] at hs; unfold stepStarter at hs
        split at hs
        case h_5 hp => simp [hp, SPc.counted, Sub.counted] at e1
        case h_6 hp => simp [hp, SPc.counted, Sub.counted] at e1
        all_goals (try split at hs) <;> cases hs <;> exact ⟨b2, b3⟩
      | stopper j b =>
        have e2 := e2 j
        simp only [step] at hs; unfold stepStopper at hs
        split at hs
        case h_3 hp => simp [hp, Cb.counted, Sub.counted] at e2
        case h_4 hp => simp [hp, Cb.counted, Sub.counted] at e2
        all_goals (try split at hs) <;> cases hs <;> exact ⟨b2, b3⟩
      | run nul => simp [step, stepRun, b2] at hs
  intro o t hm
  have h1 := inv_reach key.1
  have hd := h1.done_dead hm
  have := (h1.dead1 i hd).1
  rw [(h1.qS i).1 key.2.2] at this
  simp [Ref.live] at this

/-- All of `start()` on operation `i`, pushing onto an empty queue. -/
def startAll (i d : Nat) : List Act := .start i d :: List.replicate 7 (.starter i false)
/-- The run thread looks into its empty queue, reads the clock, looks at the heap, and waits. -/
def toWait : List Act := [.run true, .run true, .run true, .run true]

/-- **C41 is false at shutdown**: an operation whose `start()` has returned is still in the command queue when the
run thread exits — it is never completed (`C41_lost_forever`): 199-206 drain the heap, not the queue. -/
theorem C41_shutdown_false : ∃ s, Reachable s ∧
    (s.run == .exit && s.sp 0 == .done && s.q == [(.sched 0, true)] && s.log == []) = true :=
  Reach.witness (toWait ++ [.ctxStop] ++ startAll 0 5 ++ [.run true, .run true, .run true]) _ (by decide)

/-- The same for an operation that had been accepted: its stop command is in the queue when the run thread exits,
the heap is drained, but the reference held by the stop command is never given up, so the operation does not
complete although its stop callback has returned. -/
theorem C41_shutdown_stop_false : ∃ s, Reachable s ∧
    (s.run == .exit && s.sp 0 == .done && s.cb 0 == .ran && s.q == [(.stop 0, true)] && s.heap == [] &&
      s.log == [.accept 0 1, .cancel 0] && s.ref 0 == 1) = true :=
  Reach.witness (startAll 0 1000 ++ [.run true, .run false] ++ toWait ++ [.run true] ++ toWait ++ [.ctxStop, .reqStop 0, .cbBegin 0] ++
    List.replicate 6 (.stopper 0 false) ++ [.run true, .run true, .run true, .run true, .run true]) _ (by decide)

/-- **C41 is false for a stop request that overtakes `start()`**: stop is requested between 319 and the push of 232, the stop
command is queued before the schedule command and finds nothing to erase; the operation is not stopped but completes
with a value at its deadline. -/
theorem C41_stop_overtakes_false : ∃ s, Reachable s ∧
    (s.tok 0 && s.ts 0 == .gone && !s.stopReq && s.log == [.accept 0 1, .fire 0, .done 0 .value 3]) = true :=
  Reach.witness ([.start 0 3, .starter 0 false, .starter 0 false, .reqStop 0, .cbBegin 0] ++
    List.replicate 6 (.stopper 0 false) ++ [.run true, .run false, .run true] ++ List.replicate 5 (.starter 0 false) ++
    [.run true, .run false, .tick, .tick] ++ toWait ++ [.run true] ++ toWait ++ [.tick, .run true, .run true, .run true, .run true, .run true, .run true, .run true])
    _ (by decide)

/-- **C41 is false about timeliness**: two operations are in the command queue, one of them due, all `start()`s have
returned, and the run thread waits, not notified, for the deadline of a third operation (`C12_wakeup_false` is the
cause: `pop_front` returned null because of the second push, which then reported "was not empty"). -/
theorem C41_wakeup_false : ∃ s, Reachable s ∧
    (s.run == .wait 1000 && !s.ready && s.now == 7 && s.dl 1 == 0 && s.sp 0 == .done && s.sp 1 == .done && s.sp 2 == .done &&
      s.q == [(.sched 1, true), (.sched 2, true)]) = true :=
  Reach.witness (startAll 0 1000 ++ [.run true, .run false] ++ toWait ++ [.run true] ++ toWait ++ startAll 1 0 ++ [.run true, .run true] ++
    [.start 2 0, .starter 2 false, .starter 2 false, .starter 2 false, .starter 2 false, .run true, .run true, .run true] ++
    [.starter 2 false, .starter 2 false] ++ List.replicate 7 .tick) _ (by decide)

/-- Two operations: the one with the later deadline is started first, the earlier deadline is served first. -/
example : ∃ s, Reachable s ∧
    (s.log == [.accept 0 1, .accept 1 2, .fire 1, .done 1 .value 6, .fire 0, .done 0 .value 6]) = true :=
  Reach.witness (startAll 0 5 ++ [.start 1 3] ++ List.replicate 6 (.starter 1 false) ++ [.run true, .run false, .run true, .run false] ++ List.replicate 6 .tick ++
    [.run true, .run true, .run true, .run true, .run true, .run true, .run true, .run true, .run true]) _ (by decide)

/-- A stop request after `start()` returned: completed with stopped, long before the deadline. -/
example : ∃ s, Reachable s ∧
    (s.late 0 && s.q == [] && s.run == .wait 2 && s.now == 0 && s.log == [.accept 0 1, .cancel 0, .done 0 .stopped 0]) = true :=
  Reach.witness (startAll 0 1000 ++ [.run true, .run false] ++ toWait ++ [.run true] ++ toWait ++ [.reqStop 0, .cbBegin 0] ++
    List.replicate 6 (.stopper 0 false) ++ [.run true, .run true, .run false, .run false, .run false, .run false] ++ toWait) _ (by decide)

/-- Shutdown with an operation in the heap: completed with stopped. -/
example : ∃ s, Reachable s ∧
    (s.run == .exit && s.q == [] && s.log == [.accept 0 1, .cancel 0, .done 0 .stopped 0]) = true :=
  Reach.witness (startAll 0 1000 ++ [.run true, .run false] ++ toWait ++ [.ctxStop] ++ List.replicate 6 (.run true)) _ (by decide)

end Verif.Timed
