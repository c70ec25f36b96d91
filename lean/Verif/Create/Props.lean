import Verif.Create.Model
/-!
# C108: what a user of `create` relies on

The specification, of the list of events alone: `Proper` (the function is called once, first; everything done to the operation state is
done before its memory goes), `kept` and `dropped`, and the completions.
-/
namespace Verif.Create

/-- The receiver's completions, in order. -/
def completions : List Ev → List Sig
  | [] => []
  | .complete s :: l => s :: completions l
  | _ :: l => completions l

/-- What has been put into the operation state. -/
def kept : List Ev → List Nat
  | [] => []
  | .keep v :: l => v :: kept l
  | _ :: l => kept l

/-- What has been destroyed. -/
def dropped : List Ev → List Nat
  | [] => []
  | .drop v :: l => v :: dropped l
  | _ :: l => dropped l

/-- The events that write into the operation state. -/
def writes : Ev → Bool
  | .keep _ | .engage | .drop _ => true
  | _ => false

/-- Nothing is written into the operation state once its memory is gone. -/
def NoLateWrite (l : List Ev) : Prop :=
  ∀ pre post, l = pre ++ .gone :: post → ∀ e ∈ post, writes e = false

/-- The calls of the function. -/
def calls : List Ev → List (List Nat)
  | [] => []
  | .call a :: l => a :: calls l
  | _ :: l => calls l

/-- The memory of the operation state goes once. -/
def goings : List Ev → Nat
  | [] => 0
  | .gone :: l => goings l + 1
  | _ :: l => goings l

/-- A function as `create` asks for one: it completes its receiver once, before or after it returns. -/
def Once (w : World) : Prop := w.inline.isSome ≠ w.later.isSome

/-- A list in which the memory goes last has no late write. -/
theorem noLate_last (l : List Ev) (h : Ev.gone ∉ l) : NoLateWrite (l ++ [.gone]) := by
  intro pre post e
  have : post = [] := by
    rcases post.eq_nil_or_concat with rfl | ⟨q, x, rfl⟩
    · rfl
    · exfalso
      have e' : l ++ [.gone] = (pre ++ .gone :: q) ++ [x] := by rw [e]; simp
      have := (List.append_inj' e' rfl).1
      exact h (by rw [this]; simp)
  subst this
  simp

/-- **C108.** The function is called once, with the arguments given to `create`, before anything else happens. -/
theorem C108_called_once (w : World) : calls (run w) = [w.args] ∧ (run w).head? = some (.call w.args) := by
  obtain ⟨args, i, r, l, e⟩ := w
  cases i <;> cases r <;> cases l <;> cases e <;> simp [run, start, body, destroy, calls]

/-- **C108.** The receiver is completed once, with what the function completes it with, and never by `create` itself. -/
theorem C108_completes_as_the_function_does (w : World) (h : Once w) :
    completions (run w) = (w.inline.toList ++ w.later.toList) ∧ (completions (run w)).length = 1 := by
  obtain ⟨args, i, r, l, e⟩ := w
  cases i <;> cases l <;> simp [Once] at h <;> cases r <;> cases e <;> simp [run, start, body, destroy, completions]

/-- **C108.** The memory of the operation goes once, at the owner's bidding. -/
theorem C108_gone_once (w : World) : goings (run w) = 1 := by
  obtain ⟨args, i, r, l, e⟩ := w
  cases i <;> cases r <;> cases l <;> cases e <;> simp [run, start, body, destroy, goings]

/-- **C108, part.** Unless the function returns something and the owner destroys the operation while it runs: what the function
    returned is kept in the operation until that is destroyed, and destroyed with it, once; and nothing is written into the
    operation after its memory has gone. -/
theorem C108_state_partial (w : World) (h : ¬ (w.returns.isSome = true ∧ w.inline.isSome = true ∧ w.eager = true)) :
    kept (run w) = w.returns.toList ∧ dropped (run w) = w.returns.toList ∧ NoLateWrite (run w) := by
  obtain ⟨args, i, r, l, e⟩ := w
  refine ⟨?_, ?_, ?_⟩
  · cases i <;> cases r <;> cases l <;> cases e <;> simp [run, start, body, destroy, kept]
  · cases i <;> cases r <;> cases l <;> cases e <;> simp at h <;> simp [run, start, body, destroy, dropped]
  · have key : run ⟨args, i, r, l, e⟩ = (run ⟨args, i, r, l, e⟩).dropLast ++ [.gone] ∧
        Ev.gone ∉ (run ⟨args, i, r, l, e⟩).dropLast := by
      cases i <;> cases r <;> cases l <;> cases e <;> simp at h <;> simp [run, start, body, destroy]
    rw [key.1]
    exact noLate_last _ key.2

/-- **C108.** In particular a function that returns nothing may complete its receiver at once, whatever the owner does then. -/
theorem C108_void_may_complete_inline (w : World) (h : w.returns = none) :
    kept (run w) = [] ∧ dropped (run w) = [] ∧ NoLateWrite (run w) := by
  have := C108_state_partial w (by simp [h])
  simpa [h] using this

/-- **C108, the code's behaviour.** A function that returns something and completes its receiver before it returns, with an owner that
    destroys the operation when the receiver is completed: what the function returned is written into memory that has gone, and is
    never destroyed. -/
theorem C108_inline_completion_violated (w : World) (v : Nat) (s : Sig) (h1 : w.returns = some v) (h2 : w.inline = some s)
    (h3 : w.eager = true) : ¬ NoLateWrite (run w) ∧ kept (run w) = [v] ∧ dropped (run w) = [] := by
  obtain ⟨args, i, r, l, e⟩ := w
  simp only at h1 h2 h3
  subst h1 h2 h3
  refine ⟨fun hn => ?_, by simp [run, start, body, destroy, kept], by simp [run, start, body, destroy, dropped]⟩
  have := hn [.call args, .complete s] [.keep v, .engage] (by simp [run, start, body, destroy]) (.keep v) (by simp)
  simp [writes] at this

/-- **C108.** A sender connected several times gives every operation the same arguments. -/
theorem C108_connect (args : List Nat) (k : Nat) : (connect args k).length = k ∧ ∀ a ∈ connect args k, a = args := by
  refine ⟨by simp [connect], fun a h => ?_⟩
  simp [connect] at h
  exact h.2

/-! ### Concrete cases -/

/-- A function that starts work, returns a handle, and whose receiver is completed later. -/
def asynchronous : World := ⟨[1, 2], none, some 7, some ⟨.value, 3⟩, true⟩

example : Once asynchronous := by simp [Once, asynchronous]
example : ¬ (asynchronous.returns.isSome = true ∧ asynchronous.inline.isSome = true ∧ asynchronous.eager = true) := by decide
example : run asynchronous = [.call [1, 2], .keep 7, .engage, .complete ⟨.value, 3⟩, .drop 7, .gone] := by decide

/-- A function that completes at once and returns a handle all the same. -/
example : run ⟨[], some ⟨.value, 3⟩, some 7, none, true⟩ = [.call [], .complete ⟨.value, 3⟩, .gone, .keep 7, .engage] := by decide

/-! ## C109: `just_from`, `just_error_from`, `just_stopped_from` -/

/-- What the English contract of `just_from` asks of the function: it calls the sink exactly once. -/
def SinksOnce (w : Sink) (a : List Nat) : Prop := w.sinks = [a]

/-- **C109.** A function that calls the sink once and returns: the receiver is completed once, on the channel of the algorithm, with exactly
    the arguments of the sink. -/
theorem C109_sink_partial (w : Sink) (a : List Nat) (h : SinksOnce w a) (hr : w.throws = none) :
    startFrom w = .done [⟨w.tag, a⟩] := by
  simp only [SinksOnce] at h
  simp [startFrom, sunk, h, hr]

/-- **C109.** A function that throws before it has called the sink: the receiver is completed once, with the exception as an error. -/
theorem C109_throws_before_sink (w : Sink) (e : Nat) (h : w.sinks = []) (hr : w.throws = some e) (hn : w.nothrow = false) :
    startFrom w = .done [⟨.error, [e]⟩] := by
  simp [startFrom, sunk, h, hr, hn]

/-- **C109.** No function that keeps its word and no function that may throw brings the program down; a function declared `noexcept` that
    throws does. -/
theorem C109_terminates_iff (w : Sink) : startFrom w = .terminated ↔ (w.nothrow = true ∧ w.throws.isSome = true) := by
  obtain ⟨t, s, th, n⟩ := w
  cases th <;> cases n <;> simp [startFrom]

/-- **C109.** Every completion that may happen is on a declared channel. -/
theorem C109_declared (w : Sink) (l : List Done) (h : startFrom w = .done l) :
    ∀ d ∈ l, d.tag ∈ declared w := by
  obtain ⟨t, s, th, n⟩ := w
  intro d hd
  have key : d.tag = t ∨ (n = false ∧ d.tag = .error) := by
    cases th with
    | none =>
      simp only [startFrom, Outcome.done.injEq] at h
      subst h
      simp only [sunk, List.mem_map] at hd
      obtain ⟨a, -, rfl⟩ := hd
      exact .inl rfl
    | some e =>
      cases n with
      | true => simp [startFrom] at h
      | false =>
        simp [startFrom] at h
        subst h
        simp only [sunk, List.mem_append, List.mem_map, List.mem_singleton] at hd
        rcases hd with ⟨a, -, rfl⟩ | rfl
        · exact .inl rfl
        · exact .inr ⟨rfl, rfl⟩
  rcases key with h1 | ⟨rfl, h2⟩
  · simp only [declared]; split <;> simp [h1]
  · simp [declared, h2]

/-- **C109, the code's behaviour.** A function that calls the sink and throws afterwards: the receiver is completed twice, though the sink was
    called exactly once. -/
theorem C109_throws_after_sink_violated (w : Sink) (a : List Nat) (e : Nat) (h : SinksOnce w a) (hr : w.throws = some e)
    (hn : w.nothrow = false) : startFrom w = .done [⟨w.tag, a⟩, ⟨.error, [e]⟩] := by
  simp only [SinksOnce] at h
  simp [startFrom, sunk, h, hr, hn]

example : startFrom ⟨.value, [[42, 3]], none, false⟩ = .done [⟨.value, [42, 3]⟩] := rfl
example : startFrom ⟨.stopped, [], some 9, false⟩ = .done [⟨.error, [9]⟩] := rfl
example : startFrom ⟨.value, [[1]], some 9, false⟩ = .done [⟨.value, [1]⟩, ⟨.error, [9]⟩] := rfl

end Verif.Create
