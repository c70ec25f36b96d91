import Verif.Asio.Step3
import Verif.ListSum
/-!
# C59: properties of `completion_token`
-/
set_option maxHeartbeats 4000000
namespace Verif.Asio

theorem inv_step (s : St) (a : Act) (s' : St) (hi : ∃ p, InvP s p) (hs : stepOk s a = some s') : ∃ p, InvP s' p := by
  obtain ⟨p, h⟩ := hi
  unfold stepOk at hs
  split at hs
  case isFalse => cases hs
  rename_i hok
  cases a with
  | start t =>
    simp only [step] at hs
    split at hs
    · rename_i hc; cases hs; exact ⟨_, inv_start s p t h hc.1⟩
    · cases hs
  | enterRun t =>
    simp only [step] at hs
    split at hs
    · rename_i hc; cases hs
      refine ⟨p, inv_push s p t .run h hc.2.1 hc.2.2 (.inl rfl) ?_⟩
      simp only [Ok, Bool.or_eq_true, beq_iff_eq] at hok
      rcases hok with hl | hl
      · left; cases p <;> first | rfl | (exfalso; grind [InvP])
      · exact owned_ph h t ((any_owned _).1 hl)
    · cases hs
  | leave t thr =>
    simp only [step] at hs
    split at hs
    · rename_i id o rest hst; cases hs
      have hc : InvP (s.catch_ thr (!o)) p := by
        apply inv_catch s p thr _ h
        intro hn
        cases thr with
        | none => exact absurd rfl hn
        | some e =>
          simp only [Ok, hst, Rec.isOwned] at hok
          subst hok
          have := owned_ph h t (by rw [hst]; simp [nOwn])
          refine ⟨rfl, ph_alive h t this, ?_⟩
          rcases this with rfl | rfl
          · rw [(h.p1 rfl).1]; simp
          · rw [(h.p4 t rfl).1]; simp
      have hst' : (s.catch_ thr (!o)).stk t = .frame .run id o :: rest := by
        cases thr <;> simp [St.catch_, St.touch, hst]
      exact inv_pop _ p t .run id o rest hc hst' (.inl rfl)
    · rename_i id o rest hst
      split at hs
      · cases hs; exact inv_pop s p t .fini id o rest h hst (.inr (.inl rfl))
      · cases hs
    · rename_i id o rest hst
      split at hs
      · cases hs; exact inv_pop s p t .drop id o rest h hst (.inr (.inr rfl))
      · cases hs
    · cases hs
  | initEnd t thr =>
    simp only [step] at hs
    split at hs
    · rename_i id o rest hst
      have hc : InvP (s.catch_ thr false) p := by
        apply inv_catch s p thr _ h
        intro hn
        cases thr with
        | none => exact absurd rfl hn
        | some e =>
          simp only [Ok, hst, Rec.isOwned] at hok
          subst hok
          have := owned_ph h t (by rw [hst]; simp [nOwn])
          refine ⟨rfl, ph_alive h t this, ?_⟩
          rcases this with rfl | rfl
          · rw [(h.p1 rfl).1]; simp
          · rw [(h.p4 t rfl).1]; simp
      have hst' : (s.catch_ thr false).stk t = .frame .init id o :: rest := by
        cases thr <;> simp [St.catch_, St.touch, hst]
      have := inv_initEnd _ p t id o rest hc hst'
      cases o
      · simp only [Bool.false_eq_true, if_false] at hs this; cases hs; exact ⟨p, this⟩
      · simp only [if_true] at hs this; cases hs; exact ⟨p, this⟩
    · cases hs
  | emplace t =>
    simp only [step] at hs
    split at hs
    · rename_i id o rest hst
      split at hs
      · cases hs; exact ⟨p, inv_emplace_run s p t id o rest h hst⟩
      · rename_i hr; cases hs; exact ⟨p, inv_emplace_arm s p t id o rest h hst (by simpa [St.touch] using hr)⟩
    · cases hs
  | reqStop t =>
    simp only [step] at hs
    split at hs
    · rename_i hc
      split at hs
      · rename_i hcb; cases hs; exact ⟨p, inv_reqStop_run s p t h hc.1 hcb⟩
      · rename_i hcb; cases hs; exact ⟨p, inv_reqStop s p h hcb hc.2⟩
    · cases hs
  | emitLock t =>
    simp only [step] at hs
    split at hs
    · rename_i rest hst
      split at hs
      · rename_i hl; cases hs; exact ⟨p, inv_emitLock s p t rest h hst hl⟩
      · cases hs
    · cases hs
  | emitDone t =>
    simp only [step] at hs
    split at hs
    · rename_i rest hst; cases hs; exact ⟨p, inv_emitDone s p t rest h hst⟩
    · cases hs
  | call t =>
    simp only [step] at hs
    split at hs
    · rename_i hc; cases hs
      refine ⟨_, inv_call s p t h hc.1 hc.2.1 hc.2.2 ?_⟩
      simp only [Ok, Bool.not_eq_true', decide_eq_false_iff_not, mem_emit] at hok
      omega
    · cases hs
  | drop t =>
    simp only [step] at hs
    split at hs
    · rename_i hc; cases hs
      refine ⟨_, inv_drop s p t h hc.1 hc.2.1 hc.2.2 ?_⟩
      simp only [Ok, Bool.or_eq_true, Bool.not_eq_true', decide_eq_false_iff_not, mem_emit, beq_iff_eq] at hok
      rcases hok with hk | hk
      · left; omega
      · right; exact hk
    · cases hs
  | reset t =>
    simp only [step] at hs
    split at hs
    · rename_i rest hst
      split at hs
      · rename_i hf; cases hs; exact ⟨p, inv_reset_call s p t rest h hst hf⟩
      · cases hs
    · rename_i rest hst
      split at hs
      · rename_i hf; cases hs; exact ⟨p, inv_reset_fin s p t rest h hst hf⟩
      · cases hs
    · cases hs
  | complete t conv =>
    simp only [step] at hs
    split at hs
    · rename_i rest hst; cases hs; exact ⟨_, inv_complete_call s p t conv rest h hst⟩
    · rename_i rest hst
      split at hs
      · cases hs; exact ⟨_, inv_complete_fin s p t rest h hst⟩
      · cases hs
    · cases hs

theorem inv_reach (s : St) (hr : Reach {} stepOk s) : ∃ p, InvP s p :=
  Reach.inv (fun s => ∃ p, InvP s p) ⟨_, inv_init⟩ (fun s a s' hi he => inv_step s a s' hi he) s hr

/-- **C59 (safety), partial** (for users that respect `Ok`; without it the code is wrong, see below). However many threads run the
operation's work and whatever they do: the receiver is completed at most once, never before the handler was invoked or dropped, the
operation state is never accessed after the receiver was completed, and no assertion fails. -/
theorem C59_safe_partial (s : St) (hr : Reach {} stepOk s) :
    s.done.length ≤ 1 ∧ (s.done ≠ [] → s.h = .called ∨ s.h = .dropped) ∧ s.bad = false ∧ s.asrt = false := by
  obtain ⟨p, h⟩ := inv_reach s hr
  refine ⟨?_, ?_, h.bad, h.asrt⟩ <;> cases p <;> grind [InvP]

/-- **C59 (outcome), partial**. Once the handler was invoked or dropped and every call has returned, the receiver has been completed
exactly once, with the outcome the user expects: the first exception thrown by the initiation or an executor function; without one, the
handler's values, or stopped if it was dropped. -/
theorem C59_outcome_partial (s : St) (hr : Reach {} stepOk s) (hh : s.h = .called ∨ s.h = .dropped)
    (hq : ∀ t, s.stk t = []) : ∃ x, s.done = [x] ∧ Expected s.h s.thrown x := by
  obtain ⟨p, h⟩ := inv_reach s hr
  cases p with
  | unborn => have := h.p0 rfl; rcases hh with hh | hh <;> rw [hh] at this <;> simp at this
  | live => have := h.p1 rfl; rcases hh with hh | hh <;> rw [hh] at this <;> simp at this
  | calling t => have := h.nc1 t rfl; rw [hq t] at this; simp [nCall0, nCall1] at this
  | called => exact (h.p3 rfl).2.2.2.1
  | dropping t => have := (h.p4 t rfl).2.2.2.2.2.1; rw [hq t] at this; simp [bottom] at this
  | finishing t => have := h.nf1 t rfl; rw [hq t] at this; simp [nFin0, nFin1] at this
  | dropped => exact (h.p6 rfl).2.2.2.1

theorem no_frames (l : List Rec) (h1 : nOwn l = 0) (h2 : nUn l = 0) : ∀ r ∈ l, r.isFrame = false := by
  induction l with
  | nil => simp
  | cons r rs ih =>
    rcases r with ⟨k, i, o⟩ | _ | _ | b | b <;> (try cases o) <;> simp_all [nOwn, nUn, Rec.isFrame]

theorem touch_done (s : St) : s.touch.done = s.done := rfl
theorem lock_done (s : St) (t : Nat) : (s.lock t).done = s.done := rfl
theorem unlock_done (s : St) (n : Nat) : (s.unlock n).done = s.done := rfl
theorem push_done (s : St) (t : Nat) (k : Kind) : (s.push t k).done = s.done := rfl
theorem release_done (s : St) : s.release.done = s.done := rfl
theorem catch_done (s : St) (thr : Option Nat) (a : Bool) : (s.catch_ thr a).done = s.done := by
  cases thr <;> rfl
theorem pop_done (s : St) (t id : Nat) (o : Bool) (rest : List Rec) : (s.pop t id o rest).done = s.done := by
  simp only [St.pop]
  repeat' split
  all_goals rfl

/-- **C59 (abandonment), partial**. If the handler is dropped, the receiver is completed only when no initiation, executor function or
handler destructor is on any thread's stack. -/
theorem C59_abandoned_last_partial (s s' : St) (a : Act) (hr : Reach {} stepOk s) (hs : stepOk s a = some s')
    (hd : s.done = []) (hd' : s'.done ≠ []) (hh : s.h = .dropped) :
    ∀ t, ∀ r ∈ s.stk t, r.isFrame = false := by
  obtain ⟨p, h⟩ := inv_reach s hr
  unfold stepOk at hs
  split at hs
  case isFalse => cases hs
  have hf : ∃ t, p = .finishing t := by
    cases a with
    | complete t conv =>
      simp only [step] at hs
      split at hs
      · rename_i rest hst
        have hp : p = .calling t := by
          by_cases hp : p = .calling t
          · exact hp
          · have := h.nc0 t hp; rw [hst] at this; simp [nCall1] at this
        have := (h.p2 t hp).1; rw [hh] at this; cases this
      · rename_i rest hst
        refine ⟨t, ?_⟩
        by_cases hp : p = .finishing t
        · exact hp
        · have := h.nf0 t hp; rw [hst] at this; simp [nFin1] at this
      · cases hs
    | _ =>
      exfalso
      apply hd'
      simp only [step] at hs
      repeat' (split at hs)
      all_goals first
        | (cases hs; done)
        | (cases hs; simpa only [pop_done, push_done, catch_done, release_done, touch_done, lock_done, unlock_done] using hd)
  obtain ⟨t, rfl⟩ := hf
  have := h.p5 t rfl
  exact fun u => no_frames _ (this.2.2.2.2.1 u) (this.2.2.2.2.2 u)

/-- **C59 (no deadlock)**: whenever some call is in progress, some call can return or stop waiting. -/
theorem C59_no_deadlock_partial (s : St) (hr : Reach {} stepOk s) (t : Nat) (ht : s.stk t ≠ []) :
    ∃ a, Returns a = true ∧ (stepOk s a).isSome = true := by
  obtain ⟨p, h⟩ := inv_reach s hr
  -- a thread that can move, whatever its innermost call is
  have key : ∀ u, s.stk u ≠ [] → (∀ rest, s.stk u = .want :: rest → s.lockable u = true) →
      (∀ v, s.cb = .running v → v ≠ u → nCall0 (s.stk u) + nFin0 (s.stk u) = 0) →
      ∃ a, Returns a = true ∧ (stepOk s a).isSome = true := by
    intro u hne hw hcb
    have hfree : 0 < nCall0 (s.stk u) + nFin0 (s.stk u) → cbFree s.cb u = true := by
      intro hp
      cases hc : s.cb with
      | running v =>
        by_cases e : v = u
        · simp [cbFree, e]
        · have := hcb v hc e; omega
      | _ => rfl
    rcases hl : s.stk u with _ | ⟨r, rest⟩
    · exact absurd hl hne
    · rcases r with ⟨k, i, o⟩ | _ | _ | b | b
      · cases k
        · refine ⟨.initEnd u none, rfl, ?_⟩; cases o <;> simp [stepOk, Ok, step, hl, St.catch_]
        · refine ⟨.emplace u, rfl, ?_⟩; simp only [stepOk, Ok, step, hl, if_true]; split <;> rfl
        · exact ⟨.leave u none, rfl, by simp [stepOk, Ok, step, hl]⟩
        · exact ⟨.leave u none, rfl, by simp [stepOk, Ok, step, hl]⟩
        · exact ⟨.leave u none, rfl, by simp [stepOk, Ok, step, hl]⟩
      · exact ⟨.emitLock u, rfl, by simp [stepOk, Ok, step, hl, hw rest hl]⟩
      · exact ⟨.emitDone u, rfl, by simp [stepOk, Ok, step, hl]⟩
      · cases b
        · exact ⟨.reset u, rfl, by simp [stepOk, Ok, step, hl, hfree (by rw [hl]; simp [nCall0]; omega)]⟩
        · exact ⟨.complete u false, rfl, by simp [stepOk, Ok, step, hl]⟩
      · cases b
        · exact ⟨.reset u, rfl, by simp [stepOk, Ok, step, hl, hfree (by rw [hl]; simp [nFin0]; omega)]⟩
        · exact ⟨.complete u false, rfl, by simp [stepOk, Ok, step, hl]⟩
  -- the owner of the mutex can move
  cases ho : s.owner with
  | some u =>
    have hd := h.dep u ho
    have hne : s.stk u ≠ [] := by intro e; rw [e] at hd; simp [nOwn, nEmit] at hd; omega
    refine key u hne (fun _ _ => by simp [St.lockable, ho]) ?_
    intro v hv hvu
    have hru := h.run0 u (by rw [hv]; simpa using hvu)
    have hp := owned_ph h u (by omega)
    have := h.nc0 u (by rcases hp with rfl | rfl <;> simp)
    have := h.nf0 u (by rcases hp with rfl | rfl <;> simp)
    omega
  | none =>
    -- a running stop callback can lock
    cases hc : s.cb with
    | running u =>
      have h1 := h.run1 u hc
      have hne : s.stk u ≠ [] := by intro e; rw [e] at h1; simp [nWant, nEmit] at h1
      exact key u hne (fun _ _ => by simp [St.lockable, ho]) (by intro v hv hvu; simp only [Cb.running.injEq, hc] at hv; exact absurd hv.symm hvu)
    | _ => exact key t ht (fun _ _ => by simp [St.lockable, ho]) (by intro v hv; simp [hc] at hv)

/-- How many returns an activation record can still make. -/
def weight : Rec → Nat
  | .frame .init _ _ => 8
  | .frame .post _ _ => 6
  | .frame _ _ _ => 3
  | .want => 2
  | .emit => 1
  | .call false => 2
  | .call true => 1
  | .fin false => 2
  | .fin true => 1
def weights : List Rec → Nat
  | [] => 0
  | r :: rs => weight r + weights rs

/-- **C59 (no livelock)**: without new calls, the calls in progress return after finitely many steps. -/
theorem C59_returns (L : List Nat) (hL : L.Nodup) (as : List Act) (s s' : St) (hout : ∀ t, t ∉ L → s.stk t = [])
    (hr : ∀ a ∈ as, Returns a = true) (he : exec stepOk s as = some s') :
    as.length ≤ lsum weights s.stk L := by
  have one : ∀ (s s' : St) (a : Act), (∀ t, t ∉ L → s.stk t = []) → Returns a = true → stepOk s a = some s' →
      (∀ t, t ∉ L → s'.stk t = []) ∧ lsum weights s'.stk L < lsum weights s.stk L := by
    intro s s' a hout ha hs
    have upd1 : ∀ (t : Nat) (l : List Rec), s.stk t ≠ [] → weights l < weights (s.stk t) → s'.stk = upd s.stk t l →
        (∀ t, t ∉ L → s'.stk t = []) ∧ lsum weights s'.stk L < lsum weights s.stk L := by
      intro t l hne hlt he
      have hin : t ∈ L := by
        by_cases hin : t ∈ L
        · exact hin
        · exact absurd (hout t hin) hne
      rw [he]
      refine ⟨?_, ?_⟩
      · intro u hu
        rw [upd_other]
        · exact hout u hu
        · intro e; subst e; exact hu hin
      · have := lsum_upd_in (c := weights) (f := s.stk) (b := l) hL hin; omega
    have hpop : ∀ (s : St) (t id : Nat) (o : Bool) (rest : List Rec),
        (s.pop t id o rest).stk = upd s.stk t rest ∨ (s.pop t id o rest).stk = upd s.stk t (.fin false :: rest) := by
      intro s t id o rest
      simp only [St.pop]
      repeat' split
      · right; rfl
      · left; rfl
      · left; rfl
    unfold stepOk at hs
    split at hs
    case isFalse => cases hs
    cases a with
    | leave t thr =>
      cases thr with
      | some e => simp [Returns] at ha
      | none =>
        simp only [step, St.catch_, if_true] at hs
        split at hs
        all_goals first
          | (cases hs; done)
          | (rename_i id o rest hst
             cases hs
             rcases hpop s t id o rest with hq | hq
             · exact upd1 t _ (by rw [hst]; simp) (by rw [hst]; simp [weights, weight]) hq
             · exact upd1 t _ (by rw [hst]; simp) (by rw [hst]; simp [weights, weight]) hq)
    | initEnd t thr =>
      cases thr with
      | some e => simp [Returns] at ha
      | none =>
        simp only [step, St.catch_] at hs
        split at hs
        · rename_i id o rest hst
          split at hs <;> cases hs <;> exact upd1 t _ (by rw [hst]; simp) (by rw [hst]; simp [weights, weight]) rfl
        · cases hs
    | emplace t =>
      simp only [step] at hs
      split at hs
      · rename_i id o rest hst
        split at hs <;> cases hs <;> exact upd1 t _ (by rw [hst]; simp) (by rw [hst]; simp [weights, weight]; try omega) rfl
      · cases hs
    | emitLock t =>
      simp only [step] at hs
      repeat' (split at hs)
      all_goals first
        | (cases hs; done)
        | (rename_i rest hst _; cases hs; exact upd1 t _ (by rw [hst]; simp) (by rw [hst]; simp [weights, weight]) rfl)
    | emitDone t =>
      simp only [step] at hs
      split at hs
      · rename_i rest hst; cases hs; exact upd1 t _ (by rw [hst]; simp) (by rw [hst]; simp [weights, weight]) rfl
      · cases hs
    | reset t =>
      simp only [step] at hs
      repeat' (split at hs)
      all_goals first
        | (cases hs; done)
        | (rename_i rest hst _; cases hs; exact upd1 t _ (by rw [hst]; simp) (by rw [hst]; simp [weights, weight]) rfl)
    | complete t conv =>
      simp only [step] at hs
      split at hs
      · rename_i rest hst; cases hs; exact upd1 t _ (by rw [hst]; simp) (by rw [hst]; simp [weights, weight]) rfl
      · rename_i rest hst
        split at hs
        · cases hs; exact upd1 t _ (by rw [hst]; simp) (by rw [hst]; simp [weights, weight]) rfl
        · cases hs
      · cases hs
    | _ => simp [Returns] at ha
  induction as generalizing s with
  | nil => simp
  | cons a as ih =>
    simp only [exec] at he
    split at he
    · rename_i s1 h1
      have h2 := one s s1 a hout (hr a (by simp)) h1
      have := ih s1 h2.1 (fun b hb => hr b (by simp [hb])) he
      simp only [List.length_cons]; omega
    · cases he

theorem none_starting (l : List Rec) (h : ∀ r ∈ l, r.isStarting = false) : nSt l = 0 := by
  induction l with
  | nil => rfl
  | cons r rs ih =>
    have h1 := ih (fun x hx => h x (by simp [hx]))
    have h2 := h r (by simp)
    rcases r with ⟨k, i, o⟩ | _ | _ | b | b <;> (try cases k) <;> (try cases o) <;> simp_all [nSt, Rec.isStarting]

theorem mem_want (l : List Rec) : Rec.want ∈ l ↔ 0 < nWant l := by
  induction l with
  | nil => simp [nWant]
  | cons r rs ih => rcases r with ⟨k, i, o⟩ | _ | _ | b | b <;> simp [nWant] <;> exact ih

/-- **C59 (cancellation), partial**. The cancellation signal is emitted at most once; and a stop request, made before or
after the start, reaches an operation whose handler is live: once `start` has passed the registration of its stop callback, the signal has
been emitted or a thread is about to emit it. -/
theorem C59_cancel_partial (s : St) (hr : Reach {} stepOk s) :
    s.emits ≤ 1 ∧ (s.h = .live → s.stopReq = true → (∀ t, ∀ r ∈ s.stk t, r.isStarting = false) →
      s.emits = 1 ∨ ∃ t, Rec.want ∈ s.stk t) := by
  obtain ⟨p, h⟩ := inv_reach s hr
  refine ⟨h.emE, fun hh hsr hns => ?_⟩
  have hp : p = .live := by
    cases p <;> first | rfl | (exfalso; grind [InvP])
  cases hc : s.cb with
  | off =>
    obtain ⟨t, ht⟩ := h.offS (.inl hp) hc
    rw [none_starting _ (hns t)] at ht; omega
  | armed => have := h.arm hc; rw [hsr] at this; simp at this
  | running t =>
    have h1 := h.run1 t hc
    have h2 := h.runE t hc
    by_cases hw : 0 < nWant (s.stk t)
    · exact .inr ⟨t, (mem_want _).2 hw⟩
    · left; omega
  | ran => exact .inl (h.ranE hc)

/-- **C59 (eager completion)**. A thread that invokes the handler completes the receiver in its next two steps, inside whatever
frames are on its stack, unless the stop callback is running on another thread. -/
theorem C59_eager (s s' : St) (t : Nat) (conv : Bool) (hs : step s (.call t) = some s')
    (hc : ∀ u, s.cb = .running u → u = t) :
    ∃ s'', exec step s' [.reset t, .complete t conv] = some s'' ∧ s''.done.length = s.done.length + 1 := by
  simp only [step] at hs
  split at hs
  · cases hs
    have hf : cbFree s.cb t = true := by
      cases h : s.cb with
      | running u => simp [cbFree, hc u h]
      | _ => rfl
    have hf' : cbFree s.release.cb t = true := hf
    have hd := release_done s
    generalize s.release = r at *
    cases he : exec step { r with h := .called, stk := upd r.stk t (.call false :: r.stk t) } [.reset t, .complete t conv] with
    | none => simp [exec, step, hf'] at he
    | some s'' =>
      refine ⟨s'', rfl, ?_⟩
      simp [exec, step, hf'] at he
      rw [← he]; simp [hd, St.touch]
  · cases hs

/-! ### Without the contract -/

/-- A cancellation handler that invokes the completion handler inline, inside `signal_.emit`: the receiver destroys the operation
state, then the stop callback's lock guard unlocks its mutex. -/
theorem C59_violated_emit_call : ∃ s, Reach {} step s ∧ s.bad = true :=
  Reach.witness [.start 0, .initEnd 0 none, .emplace 0, .leave 0 none, .reqStop 1, .emitLock 1, .call 1, .reset 1,
    .complete 1 false, .emitDone 1] (fun s : St => s.bad) (by rfl)

/-- The same when the handler is dropped there. -/
theorem C59_violated_emit_drop : ∃ s, Reach {} step s ∧ s.bad = true :=
  Reach.witness [.start 0, .initEnd 0 none, .emplace 0, .leave 0 none, .reqStop 1, .emitLock 1, .drop 1, .leave 1 none, .reset 1,
    .complete 1 false, .emitDone 1] (fun s : St => s.bad) (by rfl)

/-- The same with a stop request made before the start: the operation state is gone while `callback_.emplace` is still
constructing the callback inside it. -/
theorem C59_violated_emit_start : ∃ s, Reach {} step s ∧ s.bad = true :=
  Reach.witness [.reqStop 1, .start 0, .initEnd 0 none, .emplace 0, .call 0, .reset 0, .complete 0 false, .emitDone 0]
    (fun s : St => s.bad) (by rfl)

/-- An initiation that completes the operation inline and then throws: `start` looks at `ex_`. -/
theorem C59_violated_throw_init : ∃ s, Reach {} step s ∧ s.bad = true :=
  Reach.witness [.start 0, .call 0, .reset 0, .complete 0 false, .initEnd 0 (some 7)] (fun s : St => s.bad) (by rfl)

/-- An executor function that completes the operation and then throws: the assertion in `run_` fails, and (without assertions) `ex_` is
accessed. -/
theorem C59_violated_throw_run : ∃ s, Reach {} step s ∧ s.bad = true ∧ s.asrt = true := by
  have := Reach.witness (init := ({} : St)) (step := step) [.start 0, .initEnd 0 none, .emplace 0, .leave 0 none, .enterRun 1, .call 1, .reset 1,
    .complete 1 false, .leave 1 (some 7)] (fun s : St => s.bad && s.asrt) (by rfl)
  simpa using this

/-- Two parallel paths, one of which drops the handler: a function of the other one, still queued, runs on a dead
operation state. -/
theorem C59_violated_parallel : ∃ s, Reach {} step s ∧ s.bad = true ∧ s.done = [.stopped] := by
  have := Reach.witness (init := ({} : St)) (step := step) [.start 0, .initEnd 0 none, .emplace 0, .leave 0 none, .enterRun 1, .drop 1, .leave 1 none,
    .leave 1 none, .reset 1, .complete 1 false, .enterRun 2] (fun s : St => s.bad && decide (s.done = [.stopped])) (by rfl)
  simpa using this

/-! ### The hypotheses are met -/

/-- The initiation throws after having queued work; a queued function (on another thread) throws too, then drops the handler in a nested
function: stopped is replaced by the first exception, and everything has returned. -/
example : ∃ s, Reach {} stepOk s ∧ (decide (s.h = .dropped ∧ s.done = [.error 3] ∧ s.thrown = [3, 4]) &&
    (List.range 3).all (fun t => (s.stk t).isEmpty)) = true :=
  Reach.witness [.start 0, .initEnd 0 (some 3), .emplace 0, .leave 0 none, .enterRun 1, .enterRun 1, .drop 1, .leave 1 none,
    .leave 1 (some 4), .leave 1 none, .reset 1, .complete 1 false] (fun s : St => decide (s.h = .dropped ∧ s.done = [.error 3] ∧
    s.thrown = [3, 4]) && (List.range 3).all (fun t => (s.stk t).isEmpty)) (by rfl)

/-- An inline completion in nested executor functions: the frames left on the stack do not touch the operation state. -/
example : ∃ s, Reach {} stepOk s ∧ decide (s.h = .called ∧ s.done = [.value] ∧ s.stk 0 = [] ∧ s.bad = false) = true :=
  Reach.witness [.start 0, .enterRun 0, .enterRun 0, .call 0, .reset 0, .complete 0 false, .leave 0 none, .leave 0 none,
    .initEnd 0 none, .leave 0 none] (fun s : St => decide (s.h = .called ∧ s.done = [.value] ∧ s.stk 0 = [] ∧ s.bad = false)) (by rfl)

/-- A stop request on thread 2 while thread 1 invokes the handler: thread 1 waits for the emission. -/
example : ∃ s, Reach {} stepOk s ∧ decide (s.h = .called ∧ s.done = [] ∧ s.emits = 1 ∧ s.stk 1 = [.call false] ∧ s.stk 2 = [] ∧
    s.cb = .ran) = true :=
  Reach.witness [.start 0, .initEnd 0 none, .emplace 0, .leave 0 none, .reqStop 2, .call 1, .emitLock 2, .emitDone 2]
    (fun s : St => decide (s.h = .called ∧ s.done = [] ∧ s.emits = 1 ∧ s.stk 1 = [.call false] ∧ s.stk 2 = [] ∧ s.cb = .ran)) (by rfl)

/-- A stop request before the start: the signal is emitted inside `start`, which then returns; the handler is live. -/
example : ∃ s, Reach {} stepOk s ∧ decide (s.h = .live ∧ s.stopReq = true ∧ s.emits = 1 ∧ s.stk 0 = []) = true :=
  Reach.witness [.reqStop 1, .start 0, .initEnd 0 none, .emplace 0, .emitDone 0, .leave 0 none]
    (fun s : St => decide (s.h = .live ∧ s.stopReq = true ∧ s.emits = 1 ∧ s.stk 0 = [])) (by rfl)

/-- The step that completes an abandoned operation. -/
example : ∃ s, Reach {} stepOk s ∧ (decide (s.h = .dropped ∧ s.done = []) && (stepOk s (.complete 0 false)).any (fun s => s.done == [.stopped])) = true :=
  Reach.witness [.start 0, .drop 0, .leave 0 none, .initEnd 0 none, .emplace 0, .leave 0 none, .reset 0]
    (fun s : St => decide (s.h = .dropped ∧ s.done = []) && (stepOk s (.complete 0 false)).any (fun s => s.done == [.stopped])) (by rfl)

end Verif.Asio
