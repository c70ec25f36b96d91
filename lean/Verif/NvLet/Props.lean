import Verif.NvLet.Model
/-! # `let_value`, `let_error`, `let_stopped` on a GPU stream (C104) -/
namespace Verif.NvLet

/-- Specification: the completions of the receiver. -/
def completions (l : List Ev) : List Sig := l.filterMap fun e => match e with | .complete s => some s | _ => none

/-- Specification: the calls of the function. -/
def calls (l : List Ev) : List Nat := l.filterMap fun e => match e with | .call x => some x | _ => none

/-- Specification: `a` is followed by `b`. -/
def Before (l : List Ev) (a b : Ev) : Prop := ∃ p q, l = p ++ q ∧ a ∈ p ∧ b ∈ q

/-- The first sender is started. -/
def Starts (w : World) : Prop := w.status = 0 ∧ w.allocOk = true

/-- The function is to be called. -/
def Calls (w : World) : Prop := Starts w ∧ w.first.tag = w.chan

/-- **C104.** The receiver is completed exactly once: with the second sender's completion, if the first one completed on the algorithm's
    channel; with the first one's completion, if on another; with the error of the CUDA runtime, if that failed before. -/
theorem C104_completion_partial (w : World) (hl : w.launchOk = true) :
    (w.status ≠ 0 → completions (run w) = [⟨.error, w.status⟩])
    ∧ (w.status = 0 → w.allocOk = false → completions (run w) = [⟨.error, 2⟩])
    ∧ (Starts w → w.first.tag ≠ w.chan → completions (run w) = [w.first])
    ∧ (Calls w → w.sync ≠ 0 → completions (run w) = [⟨.error, w.sync⟩])
    ∧ (Calls w → w.sync = 0 → completions (run w) = [w.second (w.fn w.first.arg)]) := by
  refine ⟨?_, ?_, ?_, ?_, ?_⟩
  · intro h; simp [run, h, propagate, finish, completions]
  · intro h h'; simp [run, h, h', propagate, finish, completions]
  · rintro ⟨h1, h2⟩ h3; simp [run, received, h1, h2, h3, propagate, finish, completions]
  · rintro ⟨⟨h1, h2⟩, h3⟩ h4; simp [run, received, matching, hl, h1, h2, h3, h4, propagate, finish, completions]
  · rintro ⟨⟨h1, h2⟩, h3⟩ h4
    cases ht : w.trivial <;> cases hr : w.later <;>
      simp [run, received, matching, hl, h1, h2, h3, h4, ht, hr, propagate, finish, completions]

/-- **C104.** The function is called exactly once, with what the first sender delivered, if it completed on the algorithm's channel, and
    never otherwise. -/
theorem C104_function_partial (w : World) (hl : w.launchOk = true) :
    (Calls w → calls (run w) = [w.first.arg]) ∧ (¬ Calls w → calls (run w) = []) := by
  constructor
  · rintro ⟨⟨h1, h2⟩, h3⟩
    by_cases h4 : w.sync = 0 <;> cases ht : w.trivial <;> cases hr : w.later <;>
      simp [run, received, matching, hl, h1, h2, h3, h4, ht, hr, propagate, finish, calls]
  · intro h
    by_cases h1 : w.status = 0
    · cases h2 : w.allocOk
      · simp [run, h1, h2, propagate, finish, calls]
      · have h3 : w.first.tag ≠ w.chan := fun e => h ⟨⟨h1, h2⟩, e⟩
        simp [run, received, h1, h2, h3, propagate, finish, calls]
    · simp [run, h1, propagate, finish, calls]

/-- **C104.** The sender that the function returned is constructed before it is connected, and connected at most once; if it needs
    destruction, it is destroyed exactly once, after the receiver was completed. Nothing is read that was not constructed. -/
theorem C104_sender_partial (w : World) (hl : w.launchOk = true) :
    .connectGarbage ∉ run w
    ∧ (∀ s, .connect s ∈ run w → s = w.fn w.first.arg ∧ Before (run w) (.construct s) (.connect s) ∧ (run w).count (.connect s) = 1)
    ∧ (∀ s, .destroySender s ∈ run w → .connect s ∈ run w ∧ w.trivial = false ∧ (run w).count (.destroySender s) = 1
        ∧ Before (run w) (.complete (w.second s)) (.destroySender s))
    ∧ (∀ s, .connect s ∈ run w → w.trivial = false → .destroySender s ∈ run w) := by
  by_cases h1 : w.status = 0
  case neg => simp [run, h1, propagate, finish]
  cases h2 : w.allocOk
  case false => simp [run, h1, h2, propagate, finish]
  by_cases h3 : w.first.tag = w.chan
  case neg => simp [run, received, h1, h2, h3, propagate, finish]
  by_cases h4 : w.sync = 0
  case neg => simp [run, received, matching, hl, h1, h2, h3, h4, propagate, finish]
  obtain ⟨pre, hpre, hrun⟩ : ∃ pre : List Ev, (pre = [.alloc w.mx, .firstStarted, .readByDevice w.place, .call w.first.arg]) ∧
      run w = pre ++ [.construct (w.fn w.first.arg)] ++ ([.connect (w.fn w.first.arg)]
        ++ ((if w.later = true then [.returned, .use w.place] else [.use w.place]) ++ [.complete (w.second (w.fn w.first.arg))])
        ++ finish w true (if w.trivial = true then none else some (w.fn w.first.arg))) := by
    refine ⟨_, rfl, ?_⟩
    simp [run, received, matching, hl, h1, h2, h3, h4, propagate]
  have key : ∀ s, .connect s ∈ run w → s = w.fn w.first.arg := by
    intro s hs
    rw [hrun, hpre] at hs
    cases ht : w.trivial <;> cases hr : w.later <;> simpa [ht, hr, finish] using hs
  refine ⟨?_, ?_, ?_, ?_⟩
  · rw [hrun, hpre]
    cases ht : w.trivial <;> cases hr : w.later <;> simp [finish]
  · intro s hs
    have e := key s hs
    subst e
    refine ⟨rfl, ⟨_, _, hrun, by simp, by simp⟩, ?_⟩
    rw [hrun, hpre]
    cases ht : w.trivial <;> cases hr : w.later <;> simp [finish, List.count_cons]
  · intro s hs
    have e : s = w.fn w.first.arg ∧ w.trivial = false := by
      rw [hrun, hpre] at hs
      cases ht : w.trivial <;> cases hr : w.later <;> simp [ht, hr, finish] at hs <;> exact ⟨hs, rfl⟩
    obtain ⟨e, ht⟩ := e
    subst e
    refine ⟨by rw [hrun]; simp, ht, ?_, ?_⟩
    · rw [hrun, hpre]
      cases hr : w.later <;> simp [ht, finish, List.count_cons]
    · refine ⟨pre ++ [.construct (w.fn w.first.arg)] ++ ([.connect (w.fn w.first.arg)]
        ++ ((if w.later = true then [.returned, .use w.place] else [.use w.place]) ++ [.complete (w.second (w.fn w.first.arg))])),
        finish w true (if w.trivial = true then none else some (w.fn w.first.arg)), ?_, by simp, by simp [ht, finish]⟩
      rw [hrun]; simp
  · intro s hs ht
    have e := key s hs
    subst e
    rw [hrun]; simp [ht, finish]

/-- Specification: what is done with memory. -/
def memory (l : List Ev) : List Ev := l.filter fun e => match e with | .alloc _ => true | .dealloc _ => true | _ => false

/-- **C104.** The temporary storage is given back exactly once, at the very end; with the size with which it was allocated if the returned
    sender is trivially destructible or the largest of the possible ones. -/
theorem C104_storage_partial (w : World) (hl : w.launchOk = true) :
    (¬ Starts w → memory (run w) = [])
    ∧ (Starts w → ∃ z, memory (run w) = [.alloc w.mx, .dealloc z] ∧ (run w).getLast? = some (.dealloc z)
        ∧ (w.trivial = true ∨ w.size = w.mx → z = w.mx)) := by
  constructor
  · intro h
    by_cases h1 : w.status = 0
    case neg => simp [run, h1, propagate, finish, memory]
    cases h2 : w.allocOk
    case false => simp [run, h1, h2, propagate, finish, memory]
    exact absurd ⟨h1, h2⟩ h
  · rintro ⟨h1, h2⟩
    by_cases h3 : w.first.tag = w.chan
    case neg => exact ⟨w.mx, by simp [run, received, h1, h2, h3, propagate, finish, memory]⟩
    by_cases h4 : w.sync = 0
    case neg => exact ⟨w.mx, by simp [run, received, matching, hl, h1, h2, h3, h4, propagate, finish, memory]⟩
    cases ht : w.trivial
    · refine ⟨w.size, ?_, ?_, by simp⟩ <;> cases hr : w.later <;>
        simp [run, received, matching, hl, h1, h2, h3, h4, ht, hr, propagate, finish, memory]
    · refine ⟨w.mx, ?_, ?_, by simp⟩ <;> cases hr : w.later <;>
        simp [run, received, matching, hl, h1, h2, h3, h4, ht, hr, propagate, finish, memory]

/-- **C104.** A result that lies in the first operation state may be used by the function and by the second operation until the receiver
    is completed. -/
theorem C104_arguments_partial (w : World) (hp : w.place = .opstate) : .readByDevice .stack ∉ run w ∧ .use .stack ∉ run w := by
  by_cases h1 : w.status = 0
  case neg => simp [run, h1, propagate, finish]
  cases h2 : w.allocOk
  case false => simp [run, h1, h2, propagate, finish]
  by_cases h3 : w.first.tag = w.chan
  case neg => simp [run, received, h1, h2, h3, propagate, finish]
  by_cases h4 : w.sync = 0 <;> cases hl : w.launchOk <;> cases ht : w.trivial <;> cases hr : w.later <;>
    simp [run, received, matching, hl, h1, h2, h3, h4, ht, hr, hp, propagate, finish]

/-- A machine on which everything works. -/
def good : World :=
  { chan := .value, status := 0, allocOk := true, first := ⟨.value, 20⟩, place := .opstate, launchOk := true, sync := 0
    fn := fun x => x + 1, size := 16, mx := 16, trivial := false, second := fun s => ⟨.value, 2 * s⟩, later := true }

example : Calls good ∧ good.launchOk = true ∧ run good =
    [.alloc 16, .firstStarted, .readByDevice .opstate, .call 20, .construct 21, .connect 21, .returned, .use .opstate,
      .complete ⟨.value, 42⟩, .destroySender 21, .dealloc 16] := ⟨⟨⟨rfl, rfl⟩, rfl⟩, rfl, rfl⟩

/-- **C104, the findings.** A kernel that is not accepted is not noticed, since only the result of `cudaStreamSynchronize` is looked at
    (let_xxx.cuh:145-146; `then.cuh` looks at `cudaPeekAtLastError`): the storage, in which nothing was constructed, is moved from, connected
    and started, and the receiver is not completed with the error. -/
theorem C104_launch_violated (w : World) (hc : Calls w) (hl : w.launchOk = false) (hs : w.sync = 0) :
    .connectGarbage ∈ run w ∧ completions (run w) = [] := by
  obtain ⟨⟨h1, h2⟩, h3⟩ := hc
  simp [run, received, matching, hl, h1, h2, h3, hs, completions]

example : Calls { good with launchOk := false } := ⟨⟨rfl, rfl⟩, rfl⟩

/-- The arguments are not copied (the parameters of the kernel are references, :141): with `let_error` after `then`, whose error is a variable
    on the host's stack (then.cuh:99-107), the function reads the host's stack on the device, and a second operation that completes later
    uses the variable after its function has returned. -/
theorem C104_arguments_violated (w : World) (hc : Calls w) (hl : w.launchOk = true) (hp : w.place = .stack) :
    .readByDevice .stack ∈ run w
    ∧ (w.sync = 0 → w.later = true → Before (run w) .returned (.use .stack)) := by
  obtain ⟨⟨h1, h2⟩, h3⟩ := hc
  constructor
  · by_cases h4 : w.sync = 0 <;> simp [run, received, matching, hl, h1, h2, h3, h4, hp]
  · intro h4 hr
    refine ⟨[.alloc w.mx, .firstStarted, .readByDevice .stack, .call w.first.arg, .construct (w.fn w.first.arg), .connect (w.fn w.first.arg),
      .returned], .use .stack :: (propagate (w.second (w.fn w.first.arg))
        ++ finish w true (if w.trivial = true then none else some (w.fn w.first.arg))), ?_, by simp, by simp⟩
    simp [run, received, matching, hl, h1, h2, h3, h4, hp, hr]

example : Calls { good with chan := .error, first := ⟨.error, 700⟩, place := .stack } := ⟨⟨rfl, rfl⟩, rfl⟩

/-- The storage may be given back with another size than it was allocated with. -/
theorem C104_size_violated : ∃ w, Calls w ∧ w.launchOk = true ∧ w.sync = 0 ∧ .alloc 32 ∈ run w ∧ .dealloc 32 ∉ run w ∧ .dealloc 16 ∈ run w :=
  ⟨{ good with mx := 32 }, ⟨⟨rfl, rfl⟩, rfl⟩, rfl, rfl, by decide +kernel, by decide +kernel, by decide +kernel⟩

end Verif.NvLet
