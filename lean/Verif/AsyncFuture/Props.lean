import Verif.AsyncFuture.Inv
/-!
# C47 — `async_scope::spawn_future`

Specification: the receiver connected to the future is completed at most once, and exactly once when it was started and
the spawned work has completed; with the work's completion, or with stopped if stop was requested on its token. The
state shared with the work is deleted exactly once, and not used afterwards. A stop request on the future's receiver
reaches the work.

Of these the last is false of the code (`C47_stop_false`), and memory safety is false in two situations
(`C47_assign_false`, `C47_drop_false`); the rest is proved for every interleaving.
-/
namespace Verif.AsyncFuture

/-- The receiver connected to the future is completed at most once (executions in which a future that still owns its
work is assigned to are excluded: they are undefined, see `C47_assign_false`). -/
theorem C47_once {s : St} (h : Reachable s) (ha : s.assigned = false) : s.log.length ≤ 1 := by
  have := (inv_reach h ha).lg; rw [this]; split <;> omega

/-- Only an operation that was started is completed, with the completion of the work, or with stopped after a stop
request on the receiver's token. -/
theorem C47_result {s : St} (h : Reachable s) (ha : s.assigned = false) {c : Compl} (hc : c ∈ s.log) :
    s.started = true ∧ (s.data = some c ∨ (c = .stopped ∧ s.stopR = true)) := by
  have hI := inv_reach h ha
  refine ⟨?_, hI.lgr c hc⟩
  have := hI.lg
  cases hst : s.started with
  | true => rfl
  | false => rw [hst] at this; simp at this; simp [this] at hc

/-- The work's completion is stored once and not altered. -/
theorem C47_result_stable {s s' : St} (h : Reachable s) {a : Act} {c : Compl} (hs : step s a = some s')
    (hs' : s'.assigned = false) (hc : s.data = some c) : s'.data = some c := by
  have hI := inv_reach h (assigned_mono a hs hs')
  have hw : s.wpc ≠ .working := fun e => by simp [hI.dat.2 e] at hc
  cases a <;> simp only [step, stepW, stepO] at hs
  all_goals repeat' split at hs
  all_goals cases hs
  all_goals first | exact hc | (simp_all [touch, delete, deliver]; done)

/-- No thread has a step left to make: the work has completed, its thread and the owner are not inside a function of the
library, and no stop callback is running. -/
def Quiescent (s : St) : Prop :=
  s.data ≠ none ∧ ∀ a ∈ [Act.worker, .owner, .runR, .endR, .runS, .endS], step s a = none

/-- A started operation does complete once the work has. -/
theorem C47_completes {s : St} (h : Reachable s) (ha : s.assigned = false) (hq : Quiescent s) (hst : s.started = true) :
    s.log.length = 1 := by
  obtain ⟨hd, hq⟩ := hq
  simp only [List.mem_cons, List.not_mem_nil, or_false, forall_eq_or_imp, forall_eq] at hq
  obtain ⟨q1, q2, q3, q4, q5, q6⟩ := hq
  have hI := inv_reach h ha
  have hr : s.rcb ≠ .running := by
    intro e; simp only [step, e] at q3 q4; cases hsrc : s.src <;> simp [hsrc] at q3 q4
  have hsb : s.scb ≠ .running := by
    intro e; simp only [step, e] at q5 q6; cases hsrc : s.src <;> simp [hsrc] at q5 q6
  have hw : s.wpc = .done := by
    have h2 := hI.lk; have h3 := hI.dat
    simp only [step, stepW] at q1
    cases hw : s.wpc <;> simp_all
    · split at q1 <;> cases q1
  have h4 := hI.strt hst
  have h2 := hI.lk
  have hl : s.lock = false := by cases hk : s.lock <;> simp_all
  have hw2 := hI.wt2
  rw [hI.lg]
  simp only [step, stepO] at q2
  cases ho : s.opc <;> simp_all

/-- Steps of the threads; each execution has finitely many between two of the user's. -/
def WPc.rank : WPc → Nat
  | .working => 0 | .stored => 6 | .reset => 5 | .delete => 1 | .complete1 => 4 | .complete2 => 3 | .complete3 => 1 | .done => 0
def OPc.rank : OPc → Nat
  | .making => 1 | .dropOwned => 2 | .deleteOwned => 1 | .dropHanded => 1 | .complete1 => 3 | .complete2 => 2 | .complete3 => 1
  | .future | .op | .waiting | .gone => 0
def Cb.rank : Cb → Nat
  | .running => 2 | _ => 0
def work (s : St) : Nat :=
  s.wpc.rank + s.opc.rank + s.rcb.rank + s.scb.rank + (if s.src then 0 else 1)

/-- The threads' own steps terminate. -/
theorem C47_terminates {s s' : St} {a : Act} (ha : a ∈ [Act.worker, .owner, .runR, .endR, .runS, .endS])
    (hs : step s a = some s') : work s' < work s := by
  simp only [List.mem_cons, List.not_mem_nil, or_false] at ha
  rcases ha with rfl | rfl | rfl | rfl | rfl | rfl <;> simp only [step, stepW, stepO] at hs
  all_goals repeat' split at hs
  all_goals cases hs
  all_goals simp only [work, touch, delete, deliver]
  all_goals simp only [*, WPc.rank, OPc.rank, Cb.rank, if_true, if_false]
  all_goals first | (simp; done) | omega | grind [WPc.rank, OPc.rank, Cb.rank]

/-- **C47**, memory: the shared state is not used after it was deleted, provided no future that still owns running work
is assigned to, and no stop is requested on the receiver of an operation that is abandoned before the work completes. -/
theorem C47_memory_partial {s : St} (h : Reachable s) (ha : s.assigned = false)
    (hst : s.abandoned = false ∨ s.stopR = false) : s.uaf = false := (inv_reach h ha).ua hst

/-- It is deleted at most once, and no assertion or `std::terminate` of the state machine is reached. -/
theorem C47_deleted_once {s : St} (h : Reachable s) (ha : s.assigned = false) :
    s.deletes ≤ 1 ∧ s.bad = false := by
  have hI := inv_reach h ha
  refine ⟨?_, hI.bd⟩
  rw [hI.del]; split <;> omega

/-- It is not leaked: when the work has completed and the owner has let go, it was deleted. -/
theorem C47_no_leak {s : St} (h : Reachable s) (ha : s.assigned = false) (hq : Quiescent s) (ho : s.opc = .gone) :
    s.deletes = 1 := by
  obtain ⟨hd, hq⟩ := hq
  simp only [List.mem_cons, List.not_mem_nil, or_false, forall_eq_or_imp, forall_eq] at hq
  obtain ⟨q1, q2, q3, q4, q5, q6⟩ := hq
  have hI := inv_reach h ha
  have hr : s.rcb ≠ .running := by
    intro e; simp only [step, e] at q3 q4; cases hsrc : s.src <;> simp [hsrc] at q3 q4
  have hsb : s.scb ≠ .running := by
    intro e; simp only [step, e] at q5 q6; cases hsrc : s.src <;> simp [hsrc] at q5 q6
  have hw : s.wpc = .done := by
    have h2 := hI.lk; have h3 := hI.dat
    simp only [step, stepW] at q1
    cases hw : s.wpc <;> simp_all
    · split at q1 <;> cases q1
  rw [hI.del, hI.alv.2 ⟨hw, Or.inl ho⟩]; rfl

/-- What the token in the spawned work's environment says (`__env_`, 484-486, returned by `get_env` 604-607). -/
def workSeesStop (s : St) : Bool := s.stopS

/-- **The code violates "a stop request on the future reaches the work"**: the receiver's stop request is forwarded to
the state's own stop source (`src`), of which the work has no token; the operation waits on with the work unaware. -/
theorem C47_stop_false : ∃ s, Reachable s ∧ s.opc = .waiting ∧ s.stopR = true ∧ s.rcb = .dead ∧ s.src = true ∧
    s.wpc = .working ∧ workSeesStop s = false := by
  obtain ⟨s, hr, hp⟩ := Reach.witness (init := init) (step := step)
    [.owner, .connect, .start, .stopR, .runR, .endR]
    (fun s : St => s.opc == .waiting && s.stopR && s.rcb == .dead && s.src && s.wpc == .working && !workSeesStop s) (by decide)
  simp only [Bool.and_eq_true, beq_iff_eq, Bool.not_eq_true'] at hp
  obtain ⟨⟨⟨⟨⟨h1, h2⟩, h3⟩, h4⟩, h5⟩, h6⟩ := hp
  exact ⟨s, hr, h1, h2, h3, h4, h5, h6⟩

/-- And that holds throughout: no step of the receiver's stop request, or of its callback, changes what the work sees. -/
theorem C47_stop_never_reaches {s s' : St} {a : Act} (ha : a ≠ .stopS) (hs : step s a = some s') :
    workSeesStop s' = workSeesStop s := by
  cases a <;> simp only [step, stepW, stepO] at hs
  all_goals repeat' split at hs
  all_goals cases hs
  all_goals first | rfl | exact absurd rfl ha

/-- **Unsafe assignment** (655, defaulted): assigning to a future whose work still runs deletes the operation state
under the work. -/
theorem C47_assign_false : ∃ s, Reachable s ∧ s.uaf = true ∧ s.stopR = false ∧ s.stopS = false := by
  obtain ⟨s, hr, hp⟩ := Reach.witness (init := init) (step := step)
    [.owner, .assignFuture, .workCompletes (.value 1)]
    (fun s : St => s.uaf && !s.stopR && !s.stopS) (by decide)
  simp only [Bool.and_eq_true, Bool.not_eq_true'] at hp
  exact ⟨s, hr, hp.1.1, hp.1.2, hp.2⟩

/-- **Unsafe destruction** (381-397): the destructor of the operation state hands the state over while its stop
callback is still registered; the work completes and deletes the state; the callback then runs on it. -/
theorem C47_drop_false : ∃ s, Reachable s ∧ s.uaf = true ∧ s.assigned = false := by
  obtain ⟨s, hr, hp⟩ := Reach.witness (init := init) (step := step)
    [.owner, .connect, .destroyOp, .workCompletes (.value 1), .worker, .worker, .worker, .stopR, .runR]
    (fun s : St => s.uaf && !s.assigned) (by decide)
  simp only [Bool.and_eq_true, Bool.not_eq_true'] at hp
  exact ⟨s, hr, hp.1, hp.2⟩

/-- Not vacuous: the work completes with a value while the operation waits, with a scope stop callback running. -/
example : ∃ s, Reachable s ∧ s.log = [.value 5] ∧ Quiescent s ∧ s.deletes = 1 := by
  obtain ⟨s, hr, hp⟩ := Reach.witness (init := init) (step := step)
    [.owner, .connect, .start, .stopS, .workCompletes (.value 5), .runS, .endS, .worker, .worker, .worker, .worker, .worker]
    (fun s : St => s.log == [.value 5] && s.deletes == 1 && s.data != none &&
      [Act.worker, .owner, .runR, .endR, .runS, .endS].all (fun a => step s a == none)) (by decide)
  simp only [Bool.and_eq_true, beq_iff_eq, bne_iff_ne, List.all_eq_true] at hp
  exact ⟨s, hr, hp.1.1.1, ⟨hp.1.2, hp.2⟩, hp.1.1.2⟩

end Verif.AsyncFuture
