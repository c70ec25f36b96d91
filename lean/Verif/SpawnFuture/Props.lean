import Verif.SpawnFuture.Inv
/-!
# `spawn_future`: properties C20 and C21

One schedule breaks them: the future's receiver is registered, stop is requested on it, and the spawned work
completes *inside* the canceller's `__stop_source_.request_stop()` (on the same thread, as stop callbacks do).
The producer then finds the registered receiver, completes it (destroying the stop callback does not wait: it runs
on this very thread) and destroys the state, which `request_stop()` and `__do_try_cancel` go on to use
(`C21_false`). The theorems below hold in all executions where the producer does not find the registered receiver
while nested in the canceller (`nested = false`).
-/
namespace Verif.SpawnFuture

theorem nested_late : ∀ s, Reachable s → s.nested = true → s.p ≠ .running ∧ s.p ≠ .xchg := by
  apply Reach.inv
  · simp [init]
  · intro s a s' h hs
    cases a <;> simp only [step] at hs <;> (repeat' split at hs) <;> cases hs <;>
      simp_all [touch, destroy, deliver]

theorem inv_reach {s : St} (h : Reachable s) (hn : s.nested = false) : Inv s := by
  induction h with
  | refl => exact inv_init
  | @tail s s' a hr hs ih =>
    refine inv_step (ih (nested_mono hs ?_ hn)) hs hn
    intro hp
    cases hb : s.nested with
    | false => rfl
    | true => exact absurd hp (nested_late s hr hb).2

/-- The producer's completion is nested only if a stop was requested on the future's receiver. -/
theorem nested_needs_stop : ∀ s, Reachable s → s.stop = false → s.nested = false := by
  have key : ∀ s, Reachable s → (s.k ≠ .idle → s.stop = true) ∧ (s.ploc = .inK → s.stop = true) ∧
      (s.nested = true → s.stop = true) := by
    apply Reach.inv
    · simp [init]
    · intro s a s' h hs
      cases a <;> simp only [step] at hs <;> (repeat' split at hs) <;> cases hs <;>
        simp_all [touch, destroy, deliver]
      all_goals grind
  intro s h hs
  have := (key s h).2.2
  cases hn : s.nested <;> simp_all

/-- C20 (what holds): the future's receiver is completed at most once; with the stored result of the spawned work,
or with stopped if stop was requested on it, or with the exception thrown by starting the future; never, if the
future was abandoned without having been started. Missing: executions with `nested`. -/
theorem C20_once_partial {s : St} (h : Reachable s) (hn : s.nested = false) :
    s.results.length ≤ 1 ∧
    (∀ r ∈ s.results, s.stored = some r ∨ (r = .stopped ∧ s.stop = true) ∨ (r = .exn ∧ s.threw = true)) ∧
    (s.started = false → s.results = []) := by
  have hi := inv_reach h hn
  refine ⟨?_, ?_, fun hs => (hi.nsr hs).1⟩
  · rcases hi.res with h | ⟨r, h, _⟩ <;> simp [h]
  · intro r hr
    rcases hi.res with h | ⟨r', h, h'⟩
    · simp [h] at hr
    · simp only [h, List.mem_singleton] at hr
      subst hr
      rcases h' with h' | h' | h'
      · exact .inr (.inr ⟨h'.2, h'.1⟩)
      · exact .inl h'
      · exact .inr (.inl h')

/-- The spawned work has completed and no party can move. -/
def Quiescent (s : St) : Prop :=
  s.p ≠ .running ∧ step s .p = none ∧ step s .k = none ∧ step s .c = none

theorem quiet {s : St} (hi : Inv s) (hq : Quiescent s) :
    s.p = .done ∧ (s.k = .idle ∨ s.k = .done) ∧ (s.c = .idle ∨ s.c = .threw ∨ s.c = .done) := by
  obtain ⟨hr, hp, hk, hc⟩ := hq
  have h1 : (s.k = .stopReq → nestOver s .inK = true) → s.k = .idle ∨ s.k = .done := by
    intro hst
    simp only [step] at hk
    cases hkk : s.k <;> simp only [hkk] at hk <;> simp_all
    · cases hrr : s.reg <;> simp [hrr] at hk
    · by_cases hrr : s.reg = .rcvr <;> simp [hrr] at hk
    · split at hk <;> simp at hk
  have h2 : s.p = .callback ∨ s.p = .done := by
    simp only [step] at hp
    cases hpp : s.p <;> simp only [hpp] at hp <;> simp_all
    cases hrr : s.reg <;> simp [hrr] at hp
  have h3 : s.k = .stopReq → nestOver s .inK = true := by
    intro _
    simp only [nestOver]
    rcases h2 with h2 | h2
    · have := hi.nst h2; simp [this]
    · simp [h2]
  have hkd := h1 h3
  have hcb : s.cb ≠ .running := by
    intro hb; have := hi.krun hb; rcases hkd with h | h <;> simp [h] at this
  have h4 : s.p = .done := by
    rcases h2 with h2 | h2
    · simp only [step, h2, cbFree] at hp
      simp [hcb] at hp
    · exact h2
  refine ⟨h4, hkd, ?_⟩
  simp only [step] at hc
  cases hcc : s.c <;> simp only [hcc] at hc <;> simp_all [cbFree, nestOver]
  · have := hi.cons.1 hcc
    have h5 := (hi.kIn this.1).1
    rcases hkd with h | h <;> simp [h] at this h5
  · cases hrr : s.reg <;> simp [hrr] at hc
  · by_cases hrr : s.reg = .self <;> simp [hrr] at hc
  · by_cases hrr : s.reg = .null <;> simp [hrr] at hc

/-- C20 (what holds): a started future does complete its receiver, once the spawned work has completed and every
thread has finished. -/
theorem C20_completes_partial {s : St} (h : Reachable s) (hn : s.nested = false) (hq : Quiescent s)
    (hs : s.started = true) : ∃ r, s.results = [r] := by
  have hi := inv_reach h hn
  obtain ⟨h1, h2, h3⟩ := quiet hi hq
  rcases hi.res with he | ⟨r, hr, _⟩
  · exfalso
    rcases hi.todo he hs with h | h | h | h
    · have := (hi.rR h).2.1; simp [h1, PPc.pre] at this
    · simp [h1] at h
    · rcases h2 with h2 | h2 <;> simp [h2] at h
    · rcases h3 with h3 | h3 | h3
      · have := (hi.idle h3).1; simp [hs] at this
      · simp [h3, CPc.owes] at h
      · simp [h3, CPc.owes] at h
  · exact ⟨r, hr⟩

def pRank : PPc → Nat
  | .running => 4 | .xchg => 3 | .callback => 2 | .destroy => 1 | .done => 0
def kRank : KPc → Nat
  | .idle => 0 | .stopReq => 5 | .cas => 4 | .xchg => 3 | .complete => 2 | .ret => 1 | .done => 0
def cRank : CPc → Nat
  | .idle => 9 | .constructing => 7 | .threw => 5 | .cas => 6 | .xchg => 5 | .abStop => 4 | .abXchg => 3 | .consume => 3
  | .setStopped => 1 | .destroy => 1 | .done => 0
def measure (s : St) : Nat :=
  pRank s.p + kRank s.k + 2 * cRank s.c + (if s.stop then 0 else 6) + (if s.cb = .none ∧ s.c = .idle then 6 else 0)

/-- Every execution is finite: every step decreases a measure. -/
theorem C20_terminates {s s' : St} {a : Act} (h : Reachable s) (hn : s'.nested = false) (hs : step s a = some s') :
    measure s' < measure s := by
  have hn' : s.nested = false := nested_mono hs (fun hp => by
    cases hb : s.nested with
    | false => rfl
    | true => exact absurd hp (nested_late s h hb).2) hn
  have hi := inv_reach h hn'
  have harm := hi.arm
  have hcons := hi.cons
  have hcbi := hi.cbi
  have hcbs := hi.cbs
  have hnt := hi.notab
  have hsetst := hi.cX2
  have hkst := hi.kstop
  cases a <;> simp only [step] at hs <;> (repeat' split at hs) <;> cases hs <;>
    simp only [measure, touch, destroy, deliver, pRank, kRank, cRank] at * <;> simp_all <;> grind

/-- C21 (what holds): the state is destroyed at most once and never accessed after that. -/
theorem C21_no_use_after_partial {s : St} (h : Reachable s) (hn : s.nested = false) :
    s.destroys ≤ 1 ∧ s.uaf = false := by
  have hi := inv_reach h hn
  refine ⟨?_, hi.uaf⟩
  rcases hi.alive with h | h <;> omega

/-- C21 (what holds): the state is destroyed: when the work has completed, the future has been consumed or
abandoned, and every thread has finished. -/
theorem C21_destroyed_partial {s : St} (h : Reachable s) (hn : s.nested = false) (hq : Quiescent s)
    (hc : s.c ≠ .idle) (ht : s.c ≠ .threw) : s.destroys = 1 := by
  have hi := inv_reach h hn
  obtain ⟨h1, h2, h3⟩ := quiet hi hq
  have h3 : s.c = .done := by rcases h3 with h | h | h; exact absurd h hc; exact absurd h ht; exact h
  rcases hi.alive with h | h
  · have := hi.dead h1 h
    simp [h3, CPc.early] at this
  · exact h.1

/-- Stop on the future, or its destruction, reaches the spawned work before the state can be handed over. -/
theorem C20_stop_forwarded {s : St} (h : Reachable s) :
    (s.abandoned = true → s.workStop = true) ∧ (s.k ≠ .idle → s.workStop = true) := by
  have key : ∀ s, Reachable s → (s.abandoned = true → s.workStop = true) ∧ (s.k ≠ .idle → s.workStop = true) := by
    apply Reach.inv
    · simp [init]
    · intro s a s' h hs
      cases a <;> simp only [step] at hs <;> (repeat' split at hs) <;> cases hs <;>
        simp_all [touch, destroy, deliver]
  exact key s h

/-- The future's receiver is registered; stop is requested; the work completes inline; the canceller goes on. -/
def badRun : List Act :=
  [.start false, .c, .stop, .finish .inK .stopped false, .p, .p, .p, .k]

/-- C21 is false in the code: the state is used after its destruction. -/
theorem C21_false : ∃ s, Reachable s ∧ (decide (s.uaf = true ∧ s.destroys = 1 ∧ s.nested = true)) = true :=
  Reach.witness badRun (fun s : St => decide (s.uaf = true ∧ s.destroys = 1 ∧ s.nested = true)) (by decide)

-- Non-vacuity: each outcome is reachable and quiescent.
/-- the producer completes the registered receiver -/
example : ∃ s, Reachable s ∧ (decide (s.nested = false ∧ s.results = [.value 7] ∧ s.destroys = 1 ∧ s.started = true ∧
    s.p ≠ .running ∧ step s .p = none ∧ step s .k = none ∧ step s .c = none)) = true :=
  Reach.witness [.start false, .c, .finish .own (.value 7) false, .p, .p, .p]
    (fun s : St => decide (s.nested = false ∧ s.results = [.value 7] ∧ s.destroys = 1 ∧ s.started = true ∧
    s.p ≠ .running ∧ step s .p = none ∧ step s .k = none ∧ step s .c = none)) (by decide)
/-- the consumer comes second -/
example : ∃ s, Reachable s ∧ (decide (s.nested = false ∧ s.results = [.error 3] ∧ s.destroys = 1)) = true :=
  Reach.witness [.finish .own (.error 3) false, .p, .start false, .c, .c, .c]
    (fun s : St => decide (s.nested = false ∧ s.results = [.error 3] ∧ s.destroys = 1)) (by decide)
/-- stop wins against a producer that is about to complete -/
example : ∃ s, Reachable s ∧ (decide (s.nested = false ∧ s.results = [.stopped] ∧ s.stored = some (.value 1) ∧
    s.destroys = 1)) = true :=
  Reach.witness [.start false, .c, .stop, .k, .k, .finish .own (.value 1) false, .k, .p, .p, .k, .k]
    (fun s : St => decide (s.nested = false ∧ s.results = [.stopped] ∧ s.stored = some (.value 1) ∧ s.destroys = 1))
    (by decide)
/-- stop before the start, the canceller on the consumer's thread, the work completing inside it -/
example : ∃ s, Reachable s ∧ (decide (s.nested = false ∧ s.results = [.value 4] ∧ s.ploc = .inK ∧ s.destroys = 1)) = true :=
  Reach.witness [.stop, .start false, .finish .inK (.value 4) false, .p, .k, .k, .k, .c, .c, .c]
    (fun s : St => decide (s.nested = false ∧ s.results = [.value 4] ∧ s.ploc = .inK ∧ s.destroys = 1)) (by decide)
/-- abandoned -/
example : ∃ s, Reachable s ∧ (decide (s.nested = false ∧ s.results = [] ∧ s.abandoned = true ∧ s.destroys = 1)) = true :=
  Reach.witness [.abandon, .finish .inC .stopped false, .p, .c, .c, .c]
    (fun s : St => decide (s.nested = false ∧ s.results = [] ∧ s.abandoned = true ∧ s.destroys = 1)) (by decide)

end Verif.SpawnFuture
