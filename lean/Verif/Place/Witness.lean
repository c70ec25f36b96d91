import Verif.Place.Props
/-!
# Where senders complete — concrete cases and violations
-/
namespace Verif.Place

/-- A pool scheduler as `static_thread_pool`'s or `run_loop`'s: `schedule` completes with a value, later,
on the pool; it names itself as completion scheduler on every channel (`exec/static_thread_pool.hpp`
350-357). -/
def poolLeaf (n : Nat) : Leaf :=
  ⟨fun t => t == .value, fun _ o => o = ⟨.value, n, false⟩,
   fun t => if t = .value then asynchronous else unknown, fun _ => some (.res n)⟩

def poolW : World := poolLeaf

theorem poolW_ok : poolW.OK := by
  refine ⟨fun n => ⟨?_, ?_, ?_, ?_⟩, ?_, ?_⟩
  · rintro c o rfl; rfl
  · rintro c o rfl h; cases h
  · rintro c o rfl; constructor <;> simp [poolW, poolLeaf, asynchronous, Beh.affine]
  · rintro c o sch rfl h; simp [poolW, poolLeaf] at h; exact h.symm
  · rintro n c o rfl _; rfl
  · intro n; simp [poolW, poolLeaf, asynchronous, inlineB]

theorem poolW_uniform (n : Nat) : (poolW n).Uniform := by
  constructor
  · rintro c o rfl h; cases h
  · rintro c o t rfl
    constructor <;> cases t <;> simp [poolW, poolLeaf, asynchronous, unknown, Beh.affine]

theorem poolW_infallible : ∀ n c o, (poolW n).runs c o → o.tag = .value := by
  rintro n c o rfl; rfl

/-- A scheduler like `parallel_scheduler`: when stop was already requested, `start` completes with stopped
on the spot (`__parallel_scheduler.hpp` 213-220); it names itself for the value channel only (127-132). -/
def parLeaf (n : Nat) : Leaf :=
  ⟨fun t => t == .value || t == .stopped, fun c o => o = ⟨.value, n, false⟩ ∨ o = ⟨.stopped, c, true⟩,
   fun _ => unknown, fun t => if t = .value then some (.res n) else none⟩

def parW : World := parLeaf

theorem parW_ok : parW.OK := by
  refine ⟨fun n => ⟨?_, ?_, ?_, ?_⟩, ?_, ?_⟩
  · rintro c o (rfl | rfl) <;> rfl
  · rintro c o (rfl | rfl) h
    · cases h
    · rfl
  · rintro c o (rfl | rfl) <;> exact behOK_unknown _ _
  · rintro c o sch (rfl | rfl) h <;> simp [parW, parLeaf] at h; exact h.symm
  · rintro n c o (rfl | rfl) h
    · rfl
    · cases h
  · intro n; simp [parW, parLeaf, unknown, inlineB]

/-- A sender of the user's that reports errors at once and values later, on context 1. -/
def userLeaf : Leaf :=
  ⟨fun t => t == .value || t == .error, fun c o => o = ⟨.value, 1, false⟩ ∨ o = ⟨.error, c, true⟩,
   fun t => if t = .error then inlineB else asynchronous, fun _ => none⟩

theorem userLeaf_honest : userLeaf.Honest := by
  refine ⟨?_, ?_, ?_, ?_⟩
  · rintro c o (rfl | rfl) <;> rfl
  · rintro c o (rfl | rfl) h
    · cases h
    · rfl
  · rintro c o (rfl | rfl)
    · constructor <;> simp [userLeaf, asynchronous, Beh.affine]
    · exact behOK_inline
  · rintro c o sch (rfl | rfl) h <;> simp [userLeaf] at h

/-- A sender like `stdexec::task`: completes where it was started, at once or later
(`__task.hpp` 589-607). -/
def taskLeaf : Leaf :=
  ⟨fun t => t == .value, fun c o => o = ⟨.value, c, true⟩ ∨ o = ⟨.value, c, false⟩,
   fun _ => ⟨false, true, true⟩, fun _ => none⟩

theorem taskLeaf_honest : taskLeaf.Honest := by
  refine ⟨?_, ?_, ?_, ?_⟩
  · rintro c o (rfl | rfl) <;> rfl
  · rintro c o (rfl | rfl) h <;> rfl
  · rintro c o (rfl | rfl) <;> constructor <;> simp [taskLeaf]
  · rintro c o sch (rfl | rfl) h <;> simp [taskLeaf] at h

/-! ### The hypotheses are met by ordinary senders -/

/-- `schedule(1) | then(f) | continues_on(2)`, then `on(3, read_env)`. -/
def sample : S :=
  .seq (.contOn (.thn (.sched (.res 1)) true) (.res 2) false false) (.on (.res 3) (.readEnv true) false
    false false) true

example : sample.NoLet := ⟨trivial, trivial⟩
example : sample.Plain poolW := by
  refine ⟨⟨trivial, by simp⟩, ⟨trivial, by simp⟩, .inl ?_⟩
  intro m
  simp [attrs, Attr.comp, contA, thenA, schedA, leafA, schSelf, poolW, poolLeaf]
example : sample.Traced poolW := by
  refine ⟨trivial, ⟨trivial, by simp⟩, ⟨trivial, by simp⟩, ?_⟩
  intro m
  simp [attrs, Attr.comp, contA, thenA, schedA, leafA, schSelf, poolW, poolLeaf]
example : sample.Leaves Leaf.Honest ∧ sample.Leaves Leaf.Uniform := ⟨⟨trivial, trivial⟩, trivial, trivial⟩

/-- It runs: started on 0, it completes on context 2, from where `on` started, and says so. -/
example : Runs poolW sample (some (.res 0)) 0 ⟨.value, 2, false⟩ ∧
    (attrs poolW sample).comp (some (.res 0)) .value = some (.res 2) := by
  have hsec : join ((attrs poolW (.contOn (.thn (.sched (.res 1)) true) (.res 2) false false)).sec poolW
      (some (.res 0)) .value) (some (.res 0)) = some (.res 2) := by
    simp [attrs, Attr.sec, Attr.comp, contA, thenA, schedA, leafA, schSelf, poolW, poolLeaf, mkSch, join,
      asynchronous, inlineB]
  refine ⟨⟨⟨.value, 2, false⟩, ⟨⟨.value, 1, false⟩, ⟨⟨.value, 1, false⟩, rfl, .inl rfl⟩,
      .inr ⟨⟨.value, 2, false⟩, rfl, .inl ⟨rfl, rfl⟩⟩⟩, .inr (.inr ⟨rfl, ⟨.value, 2, false⟩, ?_, rfl⟩)⟩, ?_⟩
  · rw [hsec]
    refine ⟨⟨.value, 3, false⟩, ⟨⟨.value, 3, false⟩, ⟨⟨.value, 2, true⟩, rfl,
      .inr ⟨⟨.value, 3, false⟩, rfl, .inl ⟨rfl, rfl⟩⟩⟩,
      .inr (.inr ⟨rfl, ⟨.value, 3, true⟩, ⟨rfl, rfl, .inl rfl⟩, rfl⟩)⟩,
      .inr ⟨⟨.value, 2, false⟩, rfl, .inl ⟨rfl, rfl⟩⟩⟩
  · rfl

/-- A `when_all` of inline senders is claimed to be, and is, inline: it may be awaited on the stack. -/
example : inlineAwait (attrs poolW (.whenAll 2 (fun _ => .just .value) false false)) none := by
  intro t ht
  cases t <;> simp_all [attrs, allA, orAll, anyAll, justA, Beh.or, inlineB]

/-- Something `affine` has to bring back: it completes on the task's context 0. -/
example : Runs poolW (.affine (.sched (.res 1)) false) (some (.res 0)) 0 ⟨.value, 0, false⟩ :=
  .inr ⟨rfl, .res 0, rfl, rfl, ⟨.value, 1, false⟩, rfl, .inr ⟨⟨.value, 0, false⟩, rfl, rfl, rfl⟩⟩

/-! ### Violations of C73 -/

/-- `let_value(just(), [] { return schedule(1); })`. -/
def letSample : S := .letT .value (.just .value) (.sched (.res 1)) false

theorem letSample_runs (e : Env) (c : Ctx) : Runs poolW letSample e c ⟨.value, 1, false⟩ :=
  ⟨⟨.value, c, true⟩, rfl, .inr (.inr ⟨rfl, ⟨.value, 1, false⟩, rfl, rfl⟩)⟩

/-- `let_*` repeats what its *predecessor* says (`__let.hpp` 596-601): `let_value(just(), f)` claims to
complete inline, whatever the sender returned by `f` does — here it completes later, on another context. -/
theorem C73_let_violation :
    (attrs poolW letSample).beh (some (.res 0)) .value = inlineB ∧
    Runs poolW letSample (some (.res 0)) 0 ⟨.value, 1, false⟩ ∧
    ¬ BehOK ((attrs poolW letSample).beh (some (.res 0)) .value) 0 ⟨.value, 1, false⟩ := by
  refine ⟨rfl, letSample_runs _ _, fun h => ?_⟩
  have := h.syn rfl
  cases this

/-- `then(s, f)` repeats what `s` says about its errors, but an exception of `f` is an error where and when
`s` delivered its *value*. -/
theorem C73_then_violation :
    (attrs poolW (.thn (.leaf userLeaf) true)).beh none .error = inlineB ∧
    Runs poolW (.thn (.leaf userLeaf) true) none 0 ⟨.error, 1, false⟩ :=
  ⟨rfl, ⟨.value, 1, false⟩, .inl rfl, .inr ⟨rfl, rfl, rfl⟩⟩

/-- `when_all` reports a child's error only after the last child has completed, but repeats only what the
children say about errors. -/
theorem C73_when_all_violation :
    (attrs poolW (.whenAll 2 (fun _ => .leaf userLeaf) false false)).beh none .error = inlineB ∧
    Runs poolW (.whenAll 2 (fun _ => .leaf userLeaf) false false) none 0 ⟨.error, 1, false⟩ := by
  refine ⟨rfl, .inr ⟨fun i => if i = 0 then ⟨.error, 0, true⟩ else ⟨.value, 1, false⟩, ?_, 1, rfl, rfl,
    .inr (.inl ⟨rfl, .inr ⟨0, rfl⟩⟩)⟩⟩
  intro i
  by_cases h : i = 0
  · simp only [h, if_true]; exact .inr rfl
  · simp only [h, if_false]; exact .inl rfl

/-- `sequence(s1, s2)`: an error of `s2` comes after `s1`'s value, but `sequence` repeats only what the two
say about errors. -/
theorem C73_sequence_violation :
    (attrs poolW (.seq (.leaf userLeaf) (.just .error) false)).beh none .error = inlineB ∧
    Runs poolW (.seq (.leaf userLeaf) (.just .error) false) none 0 ⟨.error, 1, false⟩ :=
  ⟨rfl, ⟨.value, 1, false⟩, .inl rfl, .inr (.inr ⟨rfl, ⟨.error, 1, true⟩, rfl, rfl⟩)⟩

/-- `affine` of a sender that is affine but may complete inline (such as `task`) claims never to complete
inline, but hands out that very sender. -/
theorem C73_affine_violation :
    (attrs poolW (.affine (.leaf taskLeaf) false)).beh (some (.res 0)) .value = asyncAffine ∧
    Runs poolW (.affine (.leaf taskLeaf) false) (some (.res 0)) 0 ⟨.value, 0, true⟩ ∧
    ¬ BehOK asyncAffine 0 ⟨.value, 0, true⟩ := by
  refine ⟨rfl, .inl ⟨rfl, .inl rfl⟩, fun h => ?_⟩
  have := h.asy rfl
  cases this

/-! ### Violations of C74 -/

/-- `schedule(1) | continues_on(inline_scheduler{})` names the *start* scheduler of the environment, since
`inline_scheduler` completes "inline", but it stays on context 1. -/
theorem C74_inline_violation :
    (attrs poolW (.contOn (.sched (.res 1)) .inl false false)).comp (some (.res 0)) .value
      = some (.res 0) ∧
    Runs poolW (.contOn (.sched (.res 1)) .inl false false) (some (.res 0)) 0 ⟨.value, 1, false⟩ :=
  ⟨rfl, ⟨.value, 1, false⟩, rfl, .inr ⟨⟨.value, 1, true⟩, rfl, .inl ⟨rfl, rfl⟩⟩⟩

/-- `let_value(schedule(1), [] { return schedule(2); })` names scheduler 1 and completes on 2. -/
theorem C74_let_violation :
    (attrs poolW (.letT .value (.sched (.res 1)) (.sched (.res 2)) false)).comp (some (.res 0)) .value
      = some (.res 1) ∧
    Runs poolW (.letT .value (.sched (.res 1)) (.sched (.res 2)) false) (some (.res 0)) 0
      ⟨.value, 2, false⟩ :=
  ⟨rfl, ⟨.value, 1, false⟩, rfl, .inr (.inr ⟨rfl, ⟨.value, 2, false⟩, rfl, rfl⟩)⟩

/-- `schedule(1) | then(f) | continues_on(2)`: the exception of `f` is delivered on 2, but the sender names
scheduler 1 for errors (the second overload, `__continues_on.hpp` 184-196). -/
theorem C74_error_violation :
    (attrs poolW (.contOn (.thn (.sched (.res 1)) true) (.res 2) false false)).comp (some (.res 0)) .error
      = some (.res 1) ∧
    Runs poolW (.contOn (.thn (.sched (.res 1)) true) (.res 2) false false) (some (.res 0)) 0
      ⟨.error, 2, false⟩ :=
  ⟨rfl, ⟨.error, 1, false⟩, ⟨⟨.value, 1, false⟩, rfl, .inr ⟨rfl, rfl, rfl⟩⟩,
    .inr ⟨⟨.value, 2, false⟩, rfl, .inl ⟨rfl, rfl⟩⟩⟩

/-- `just() | continues_on(parallel_scheduler)` names the parallel scheduler for stopped, but a stop request
made before the start is reported on the context of the caller. -/
theorem C74_stopped_violation :
    (attrs parW (.contOn (.just .value) (.res 1) false false)).comp (some (.res 0)) .stopped
      = some (.res 1) ∧
    Runs parW (.contOn (.just .value) (.res 1) false false) (some (.res 0)) 0 ⟨.stopped, 0, true⟩ :=
  ⟨rfl, ⟨.value, 0, true⟩, rfl, .inr ⟨⟨.stopped, 0, true⟩, .inr rfl, .inr ⟨by simp, rfl⟩⟩⟩

/-- `sequence(s1, s2)`, when only one of the two knows where its errors arrive, names that scheduler for the
errors of both. -/
theorem C74_sequence_violation :
    (attrs poolW (.seq (.leaf { userLeaf with beh := fun _ => unknown }) (.thn (.sched (.res 2)) true)
      false)).comp (some (.res 0)) .error = some (.res 2) ∧
    Runs poolW (.seq (.leaf { userLeaf with beh := fun _ => unknown }) (.thn (.sched (.res 2)) true) false)
      (some (.res 0)) 0 ⟨.error, 0, true⟩ :=
  ⟨rfl, ⟨.error, 0, true⟩, .inr rfl, .inl ⟨by simp, rfl⟩⟩

/-- `continues_on(just(x), 1) | upon_error(f)` names scheduler 1 for values, but if copying `x` throws, the
value of `f` is delivered where the sender was started. -/
theorem C74_upon_error_violation :
    (attrs poolW (.uponE (.contOn (.just .value) (.res 1) true false) false)).comp (some (.res 0)) .value
      = some (.res 1) ∧
    Runs poolW (.uponE (.contOn (.just .value) (.res 1) true false) false) (some (.res 0)) 0
      ⟨.value, 0, true⟩ :=
  ⟨rfl, ⟨.error, 0, true⟩, ⟨⟨.value, 0, true⟩, rfl, .inl ⟨.inl ⟨rfl, rfl⟩, rfl⟩⟩,
    .inr ⟨rfl, .inl rfl⟩⟩

/-! ### Violations of C75-C78 -/

/-- `on(1, s)` started on 0 completes on 1 if copying `s`'s result throws. -/
theorem C75_throw_violation :
    Runs poolW (.on (.res 1) (.just .value) false true false) (some (.res 0)) 0 ⟨.error, 1, false⟩ := by
  refine ⟨⟨.value, 1, false⟩, ⟨⟨.value, 1, false⟩, ⟨⟨.value, 0, true⟩, rfl,
    .inr ⟨⟨.value, 1, false⟩, rfl, .inl ⟨rfl, rfl⟩⟩⟩,
    .inr (.inr ⟨rfl, ⟨.value, 1, true⟩, rfl, rfl⟩)⟩, .inl ⟨.inl ⟨rfl, rfl⟩, rfl⟩⟩

/-- `on(let_value(just(), [] { return schedule(1); }), 2, closure)`, started on 0: the predecessor completes
on 1, the result is delivered on 0. -/
theorem C75_closure_violation :
    (attrs poolW letSample).comp (some (.res 0)) .value = some (.res 0) ∧
    Runs poolW letSample (some (.res 0)) 0 ⟨.value, 1, false⟩ ∧
    onClosureR poolW (Runs poolW letSample) (.res 2) (.res 0) id false false false false
      (some (.res 0)) 0 ⟨.value, 0, false⟩ :=
  ⟨rfl, letSample_runs _ _, ⟨.value, 2, false⟩, ⟨⟨.value, 1, false⟩, letSample_runs _ _,
    .inr ⟨⟨.value, 2, false⟩, rfl, .inl ⟨rfl, rfl⟩⟩⟩, .inr ⟨⟨.value, 0, false⟩, rfl, .inl ⟨rfl, rfl⟩⟩⟩

/-- A task awaiting `let_value(just(), [] { return schedule(1); })` is resumed on context 1: by `exec::task`,
and by `stdexec::task` (through `affine`) if the sender can only complete with a value. -/
theorem C76_let_violation :
    taskAwait poolW letSample (.res 0) false false (some (.res 0)) 0 ⟨.value, 1, false⟩ ∧
    Runs poolW (.affine letSample false) (some (.res 0)) 0 ⟨.value, 1, false⟩ :=
  ⟨letSample_runs _ _, .inl ⟨rfl, letSample_runs _ _⟩⟩

/-- A task awaiting a sender whose result throws when copied is resumed, with the exception, where the sender
completed (`__finally.hpp` 192-205). -/
theorem C76_throw_violation :
    Runs poolW (.affine (.sched (.res 1)) true) (some (.res 0)) 0 ⟨.error, 1, false⟩ :=
  .inr ⟨rfl, .res 0, rfl, rfl, ⟨.value, 1, false⟩, rfl, .inl ⟨by simp, rfl, rfl⟩⟩

/-- `exec::task` looks at the value channel only: an error of a sender whose values come inline resumes the
coroutine wherever it arrives. -/
def errElsewhere : Leaf :=
  ⟨fun t => t == .value || t == .error, fun c o => o = ⟨.value, c, true⟩ ∨ o = ⟨.error, 1, false⟩,
   fun t => if t = .value then inlineB else asynchronous, fun _ => none⟩

theorem C76_error_violation : errElsewhere.Honest ∧
    taskAwait poolW (.leaf errElsewhere) (.res 0) false false (some (.res 0)) 0 ⟨.error, 1, false⟩ := by
  refine ⟨⟨?_, ?_, ?_, ?_⟩, .inr rfl⟩
  · rintro c o (rfl | rfl) <;> rfl
  · rintro c o (rfl | rfl) h
    · rfl
    · cases h
  · rintro c o (rfl | rfl)
    · exact behOK_inline
    · constructor <;> simp [errElsewhere, asynchronous, Beh.affine]
  · rintro c o sch (rfl | rfl) h <;> simp [errElsewhere] at h

/-- `co_await let_value(just(), [] { return schedule(1); })` puts the operation state on the stack of
`await_suspend`, which returns while the operation is still running. -/
theorem C77_let_violation : inlineAwait (attrs poolW letSample) none ∧
    Runs poolW letSample none 0 ⟨.value, 1, false⟩ := by
  refine ⟨fun t ht => ?_, letSample_runs _ _⟩
  cases t
  · rfl
  · revert ht; decide
  · revert ht; decide

/-- `sequence(s1, s2)` where `s1` does not say where it completes: `s2` runs on context 1 but finds the
scheduler of context 0 in its environment. -/
theorem C78_sequence_violation :
    Starts poolW (.seq (.leaf userLeaf) (.readEnv false) false) (some (.res 0)) 0
      (.readEnv false) (some (.res 0)) 1 :=
  Starts.seq2 (o1 := ⟨.value, 1, false⟩) (.inl rfl) rfl (Starts.self _ _ _)

/-- `schedule(1) | continues_on(inline_scheduler{}) | let_value(f)`: the sender returned by `f` runs on 1 and
finds the scheduler of 0. -/
theorem C78_inline_violation :
    Starts poolW (.letT .value (.contOn (.sched (.res 1)) .inl false false) (.readEnv false) false)
      (some (.res 0)) 0 (.readEnv false) (some (.res 0)) 1 :=
  Starts.let2 (o1 := ⟨.value, 1, false⟩) C74_inline_violation.2 rfl (Starts.self _ _ _)

end Verif.Place
